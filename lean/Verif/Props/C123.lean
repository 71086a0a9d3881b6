import Verif.Props.C122Pspec
import Verif.Props.C119
import Verif.Props.C30
import Verif.Model.Cramer

/-! C123: blank channels at the two ends of the spectral axis of a cube. -/

namespace TS
open Finset

namespace Spec

/-- The cube with `t` missing channels before its first and `b` after its last channel. -/
def widened (t b : ℕ) (a : Arr3 (Option ℝ)) : Arr3 (Option ℝ) :=
  ⟨t + a.n + b, a.m, a.p, fun v i j => if t ≤ v ∧ v < t + a.n then a.get (v - t) i j else none⟩

end Spec

private theorem wide_in (t b : ℕ) (a : Arr3 (Option ℝ)) {v : ℕ} (hv : v < a.n) (i j : ℕ) : (Spec.widened t b a).get (t + v) i j = a.get v i j := by
  show (if _ then _ else _) = _
  rw [if_pos (by omega), Nat.add_sub_cancel_left]

private theorem wide_out (t b : ℕ) (a : Arr3 (Option ℝ)) {v : ℕ} (hv : ¬(t ≤ v ∧ v < t + a.n)) (i j : ℕ) : (Spec.widened t b a).get v i j = none :=
  if_neg hv

/-! ### SCF -/

private theorem shifter_one {n : ℕ} (hn : 0 < n) (s : ℝ) (j : ℕ) : shifter n (fun _ => 1) s j = 1 := by
  have hd : ∀ k < n, dft1 n (fun _ => ((1 : ℝ) : ℂ)) k = if k = 0 then (n : ℂ) else 0 := by
    intro k hk
    unfold dft1
    simp only [Complex.ofReal_one, one_mul]
    rw [sum_om hn]
    refine if_congr ⟨fun h => ?_, fun h => by simp [h]⟩ rfl rfl
    have := Nat.le_of_dvd (n := n) (m := k)
    by_contra h0
    exact absurd (Nat.le_of_dvd (Nat.pos_of_ne_zero h0) (by exact_mod_cast h)) (by omega)
  have hne : (n : ℂ) ≠ 0 := by exact_mod_cast hn.ne'
  unfold shifter
  rw [idft1_congr (G := fun k => if k = 0 then (n : ℂ) else 0)]
  · unfold idft1
    rw [sum_eq_single 0]
    · simp [om_zero, hne]
    · intro k _ hk
      simp [hk]
    · intro h
      exact absurd (mem_range.2 hn) h
  · intro k hk
    rw [hd k hk]
    by_cases h0 : k = 0
    · subst h0
      rw [if_pos rfl]
      have : (fftfreq n).get 0 = 0 := by simp [fftfreq]
      rw [this]
      simp
    · rw [if_neg h0, zero_mul]

private theorem line_missing {n : ℕ} (hn : 0 < n) (x : ℕ → Option ℝ) (hx : ∀ i, x i = none) (s : ℝ) (j : ℕ) : (fourierShift ⟨n, x⟩ s).get j = none := by
  have : x = fun _ => none := funext hx
  subst this
  unfold fourierShift
  simp only [Option.isSome_none, Bool.false_eq_true, if_false]
  rw [shifter_one hn, if_pos (by norm_num)]

private theorem wide_shift1 (t b : ℕ) (a : Arr3 (Option ℝ)) (hm : 0 < a.m) (s : ℝ) :
    fourierShift1 (Spec.widened t b a) s = Spec.widened t b (fourierShift1 a s) := by
  unfold fourierShift1 Spec.widened
  simp only
  congr 1
  funext v i j
  by_cases h : t ≤ v ∧ v < t + a.n
  · simp only [if_pos h]
  · simp only [if_neg h]
    exact line_missing hm _ (fun _ => rfl) s i

private theorem wide_shift2 (t b : ℕ) (a : Arr3 (Option ℝ)) (hp : 0 < a.p) (s : ℝ) :
    fourierShift2 (Spec.widened t b a) s = Spec.widened t b (fourierShift2 a s) := by
  unfold fourierShift2 Spec.widened
  simp only
  congr 1
  funext v i j
  by_cases h : t ≤ v ∧ v < t + a.n
  · simp only [if_pos h]
  · simp only [if_neg h]
    exact line_missing hp _ (fun _ => rfl) s j

private theorem shiftX (t b : ℕ) (c : Arr3 (Option ℝ)) (hm : 0 < c.m) (x : ℝ) :
    ∃ u, scfShiftX c x = .ok u ∧ u.n = c.n ∧ u.p = c.p ∧ scfShiftX (Spec.widened t b c) x = .ok (Spec.widened t b u) := by
  unfold scfShiftX
  split_ifs with h1 h2
  · exact ⟨c, rfl, rfl, rfl, rfl⟩
  · exact ⟨_, rfl, rfl, rfl, rfl⟩
  · exact ⟨_, rfl, rfl, rfl, congrArg Except.ok (wide_shift1 t b c hm x)⟩

private theorem shiftY (t b : ℕ) (c : Arr3 (Option ℝ)) (hp : 0 < c.p) (x : ℝ) :
    ∃ u, scfShiftY c x = .ok u ∧ u.n = c.n ∧ scfShiftY (Spec.widened t b c) x = .ok (Spec.widened t b u) := by
  unfold scfShiftY
  split_ifs with h1 h2
  · exact ⟨_, rfl, rfl, rfl⟩
  · exact ⟨_, rfl, rfl, congrArg Except.ok (wide_shift2 t b c hp x)⟩
  · exact ⟨c, rfl, rfl, rfl⟩

private theorem values_wide (t b : ℕ) {x y : Arr3 (Option ℝ)} (hn : y.n = x.n) :
    scfValues (Spec.widened t b x) (Spec.widened t b y) = scfValues x y := by
  have one : ∀ (f : Option ℝ → Option ℝ → Option ℝ), f none none = none → ∀ i j,
      ∑ v ∈ range (t + x.n + b), (f ((Spec.widened t b x).get v i j) ((Spec.widened t b y).get v i j)).getD 0 =
        ∑ v ∈ range x.n, (f (x.get v i j) (y.get v i j)).getD 0 := by
    intro f hf i j
    refine (sum_frame t x.n b _ fun v _ hv => ?_).trans (sum_congr rfl fun v hv => ?_)
    · rw [wide_out t b x hv, wide_out t b y (by rw [hn]; exact hv), hf]
      rfl
    · rw [wide_in t b x (mem_range.1 hv), wide_in t b y (by rw [hn]; exact mem_range.1 hv)]
  by_cases h : x.n = y.n ∧ x.m = y.m ∧ x.p = y.p
  · have z : x.zip (fun s t => sqO (subO s t)) y = .ok ⟨x.n, x.m, x.p, fun v i j => sqO (subO (x.get v i j) (y.get v i j))⟩ := if_pos h
    have z' : (Spec.widened t b x).zip (fun s t => sqO (subO s t)) (Spec.widened t b y) =
        .ok ⟨t + x.n + b, x.m, x.p, fun v i j => sqO (subO ((Spec.widened t b x).get v i j) ((Spec.widened t b y).get v i j))⟩ :=
      if_pos ⟨show t + x.n + b = t + y.n + b by rw [hn], h.2.1, h.2.2⟩
    simp only [scfValues, z, z', bind, Except.bind, pure, Except.pure, Arr3.nansum0, Arr3.map]
    congr 2
    funext i j
    have e1 := one (fun s t => sqO (subO s t)) rfl i j
    have e2 := one (fun s _ => sqO s) rfl i j
    have e3 := one (fun _ s => sqO s) rfl i j
    show divO (some (∑ v ∈ range (t + x.n + b), _)) (some (∑ v ∈ range (t + x.n + b), _ + ∑ v ∈ range (t + y.n + b), _)) = _
    rw [hn, e1, e2, e3]
  · have z : x.zip (fun s t => sqO (subO s t)) y = .error .valueError := if_neg h
    have z' : (Spec.widened t b x).zip (fun s t => sqO (subO s t)) (Spec.widened t b y) = .error .valueError :=
      if_neg fun h' => h ⟨hn.symm, h'.2.1, h'.2.2⟩
    simp only [scfValues, z, z', bind, Except.bind]

private theorem value_wide (t b : ℕ) (bd : String) {c : Arr3 (Option ℝ)} (hm : 0 < c.m) (hp : 0 < c.p) (x y : ℝ) :
    scfValue bd (Spec.widened t b c) x y = scfValue bd c x y := by
  obtain ⟨u, e, un, up, e'⟩ := shiftX t b c hm x
  obtain ⟨w, f, wn, f'⟩ := shiftY t b u (up ▸ hp) y
  have hv : scfValues (scfParts bd (Spec.widened t b c) (Spec.widened t b w) x y).1 (scfParts bd (Spec.widened t b c) (Spec.widened t b w) x y).2 =
      scfValues (scfParts bd c w x y).1 (scfParts bd c w x y).2 := by
    unfold scfParts
    split_ifs
    · exact values_wide t b (x := (c.slice1 (scfCutSlices w.m ⌈x⌉).1).slice2 (scfCutSlices w.p ⌈y⌉).1)
        (y := (w.slice1 (scfCutSlices w.m ⌈x⌉).2).slice2 (scfCutSlices w.p ⌈y⌉).2) (wn.trans un)
    · exact values_wide t b (wn.trans un)
  unfold scfValue
  simp only [e, e', f, f', bind, Except.bind, hv]

/-- **SCF surface.** Blank channels do not change the surface: any lags, whole or not, either boundary, missing voxels anywhere. -/
theorem C123_scf_surface (bd : String) (c : Arr3 (Option ℝ)) (hm : 0 < c.m) (hp : 0 < c.p) (lags : Arr1 ℝ) (t b : ℕ) :
    scfSurface bd (Spec.widened t b c) lags = scfSurface bd c lags := by
  have e : scfStep bd (Spec.widened t b c) lags = scfStep bd c lags := by
    funext s n
    simp only [scfStep, value_wide t b bd hm hp]
  unfold scfSurface
  rw [e]

/-- **SCF object.** Nor do they change what `compute_surface` and `compute_spectrum` leave in the object, whatever their options. -/
theorem C123_scf (o : ScfObj) (bd : String) (c : Arr3 (Option ℝ)) (hm : 0 < c.m) (hp : 0 < c.p) (k : ScfSpecKw) (t b : ℕ) :
    o.computeSurface bd (Spec.widened t b c) = o.computeSurface bd c ∧ o.computeSpectrum (Spec.widened t b c) k = o.computeSpectrum c k := by
  have e : ∀ bd lags, scfStepIn bd (Spec.widened t b c) lags = scfStepIn bd c lags := by
    intro bd lags
    funext s n
    simp only [scfStepIn, scfStep, value_wide t b bd hm hp]
  have e2 : ∀ bd, o.computeSurface bd (Spec.widened t b c) = o.computeSurface bd c := by
    intro bd
    unfold ScfObj.computeSurface scfSurfaceIn
    rw [e]
  refine ⟨e2 bd, ?_⟩
  unfold ScfObj.computeSpectrum ScfObj.ensureSurface
  cases o.surface with
  | none => simp only [e2]
  | some s => rfl

/-! ### VCA and VCS -/

/-- **VCA.** Blank channels, which the code takes as zeros, multiply the power at all frequencies by one number, the ratio of the numbers of channels: the
slope of the spectrum is kept, its level is not. -/
theorem C123_vca (cube : Arr3 (Option ℝ)) (hn : 0 < cube.n) (hm : 0 < cube.m) (hp : 0 < cube.p) (t b : ℕ) :
    ∃ ps ps', vcaComputePspec (fillNan3 0 cube) none = .ok ps ∧ vcaComputePspec (fillNan3 0 (Spec.widened t b cube)) none = .ok ps' ∧
      ps.n = cube.m ∧ ps.m = cube.p ∧ ps'.n = cube.m ∧ ps'.m = cube.p ∧
      ∀ i < cube.m, ∀ j < cube.p, ps'.get i j = ((t + cube.n + b : ℕ) : ℝ) / cube.n * ps.get i j := by
  obtain ⟨ps, e, n1, m1, g⟩ := C03_vca_channel_sum (fillNan3 0 cube) hn hm hp
  obtain ⟨ps', e', n2, m2, g'⟩ := C03_vca_channel_sum (fillNan3 0 (Spec.widened t b cube)) (show 0 < t + cube.n + b by omega) hm hp
  refine ⟨ps, ps', e, e', n1, m1, n2, m2, fun i hi j hj => ?_⟩
  rw [g i hi j hj, g' i hi j hj]
  have s : ∑ c ∈ range (t + cube.n + b), Spec.power2 (Spec.channel (fillNan3 0 (Spec.widened t b cube)) c)
        ((i : ℤ) - (cube.m / 2 : ℕ)) ((j : ℤ) - (cube.p / 2 : ℕ)) =
      ∑ c ∈ range cube.n, Spec.power2 (Spec.channel (fillNan3 0 cube) c) ((i : ℤ) - (cube.m / 2 : ℕ)) ((j : ℤ) - (cube.p / 2 : ℕ)) := by
    refine (sum_frame t cube.n b _ fun c _ hc => ?_).trans (sum_congr rfl fun c hc => ?_)
    · have : Spec.channel (fillNan3 0 (Spec.widened t b cube)) c = ⟨cube.m, cube.p, fun _ _ => 0⟩ := by
        refine congrArg (fun f => (⟨cube.m, cube.p, f⟩ : Arr2 ℝ)) (funext fun i => funext fun j => ?_)
        show ((Spec.widened t b cube).get c i j).getD 0 = 0
        rw [wide_out t b cube hc]
        rfl
      rw [this]
      simp [Spec.power2, dft2]
    · have : Spec.channel (fillNan3 0 (Spec.widened t b cube)) (t + c) = Spec.channel (fillNan3 0 cube) c := by
        refine congrArg (fun f => (⟨cube.m, cube.p, f⟩ : Arr2 ℝ)) (funext fun i => funext fun j => ?_)
        show ((Spec.widened t b cube).get (t + c) i j).getD 0 = (cube.get c i j).getD 0
        rw [wide_in t b cube (mem_range.1 hc)]
      rw [this]
  have hne : (cube.n : ℝ) ≠ 0 := by exact_mod_cast hn.ne'
  show ((t + cube.n + b : ℕ) : ℝ) * ∑ c ∈ range (t + cube.n + b), Spec.power2 (Spec.channel (fillNan3 0 (Spec.widened t b cube)) c)
        ((i : ℤ) - (cube.m / 2 : ℕ)) ((j : ℤ) - (cube.p / 2 : ℕ)) = _
  rw [s]
  show _ = _ / _ * ((cube.n : ℝ) * ∑ c ∈ range cube.n, _)
  field_simp
  rfl

/-- **VCS (partial).** For a cube of positive values, missing ones allowed, blank channels keep the spectrum at every frequency that both have:
`k'` cycles in all channels with the blank ones, `k` cycles in those of the cube. Missing: the frequencies in between, which only the longer spectrum
has. Other cubes: `C123_vcs_violated`. -/
theorem C123_vcs_partial (cube : Arr3 (Option ℝ)) (hval : ∃ a < cube.n, ∃ i < cube.m, ∃ j < cube.p, cube.get a i j ≠ none)
    (hpos : ∀ a i j x, cube.get a i j = some x → 0 < x) (t b : ℕ) :
    ∃ ps ps', vcsComputePspec cube = .ok ps ∧ vcsComputePspec (Spec.widened t b cube) = .ok ps' ∧ ps.n = cube.n ∧ ps'.n = t + cube.n + b ∧
      ∀ k < cube.n, ∀ k' < t + cube.n + b, (k' : ℝ) / ((t + cube.n + b : ℕ) : ℝ) = (k : ℝ) / cube.n → ps'.get k' = ps.get k := by
  classical
  obtain ⟨a0, ha0, i0, hi0, j0, hj0, hne⟩ := hval
  have hn : 0 < cube.n := by omega
  obtain ⟨ps, h1, h2, h3⟩ := vcs_positive cube hn (by omega) (by omega) ⟨a0, ha0, i0, hi0, j0, hj0, hne⟩ hpos
  obtain ⟨ps', g1, g2, g3⟩ := vcs_positive (Spec.widened t b cube) (show 0 < t + cube.n + b by omega) (show 0 < cube.m by omega)
    (show 0 < cube.p by omega)
    ⟨t + a0, show t + a0 < t + cube.n + b by omega, i0, hi0, j0, hj0, by rw [wide_in t b cube ha0]; exact hne⟩ (by
      intro a i j x hx
      by_cases h : t ≤ a ∧ a < t + cube.n
      · have : (Spec.widened t b cube).get a i j = cube.get (a - t) i j := if_pos h
        exact hpos _ i j x (this.symm.trans hx)
      · rw [wide_out t b cube h] at hx
        cases hx)
  refine ⟨ps, ps', h1, g1, h2, g2, fun k hk k' hk' hkk => ?_⟩
  rw [h3 k hk, g3 k' hk']
  have hN : 0 < t + cube.n + b := by omega
  have hk2 : (k' : ℤ) * cube.n = (k : ℤ) * ((t + cube.n + b : ℕ) : ℤ) := by
    have a1 : (cube.n : ℝ) ≠ 0 := by exact_mod_cast hn.ne'
    have a2 : ((t + cube.n + b : ℕ) : ℝ) ≠ 0 := by exact_mod_cast hN.ne'
    rw [div_eq_div_iff a2 a1] at hkk
    exact_mod_cast hkk
  have eC : ∀ i j, (∃ a < (Spec.widened t b cube).n, (Spec.widened t b cube).get a i j ≠ none) ↔ ∃ a < cube.n, cube.get a i j ≠ none := by
    intro i j
    constructor
    · rintro ⟨a, _, hx⟩
      by_cases h : t ≤ a ∧ a < t + cube.n
      · have : (Spec.widened t b cube).get a i j = cube.get (a - t) i j := if_pos h
        exact ⟨a - t, by omega, this ▸ hx⟩
      · exact absurd (wide_out t b cube h i j) hx
    · rintro ⟨a, ha, hx⟩
      exact ⟨t + a, show t + a < t + cube.n + b by omega, by rw [wide_in t b cube ha]; exact hx⟩
  have eP : ∀ i j, Spec.specPower (fillNan3 0 (Spec.widened t b cube)) i j k' = Spec.specPower (fillNan3 0 cube) i j k := by
    intro i j
    have : dft1 (t + cube.n + b) (fun c => (Spec.losSpectrum (fillNan3 0 (Spec.widened t b cube)) i j c : ℂ)) k' =
        om cube.n (t * k) * dft1 cube.n (fun c => (Spec.losSpectrum (fillNan3 0 cube) i j c : ℂ)) k := by
      unfold dft1
      refine (sum_frame t cube.n b _ fun c _ hc => ?_).trans ?_
      · show ((((Spec.widened t b cube).get c i j).getD 0 : ℝ) : ℂ) * _ = 0
        rw [wide_out t b cube hc]
        simp
      · rw [mul_sum]
        refine sum_congr rfl fun c hc => ?_
        show ((((Spec.widened t b cube).get (t + c) i j).getD 0 : ℝ) : ℂ) * _ = om cube.n (t * k) * ((((cube.get c i j).getD 0 : ℝ) : ℂ) * om cube.n (c * k))
        rw [wide_in t b cube (mem_range.1 hc), om_same hn hN hk2]
        push_cast
        rw [add_mul, om_add]
        ring
    unfold Spec.specPower
    show ‖dft1 (t + cube.n + b) _ _‖ ^ 2 = ‖dft1 cube.n _ _‖ ^ 2
    rw [this, norm_mul, norm_om, one_mul]
  simp only [eC, eP]
  rfl

/-- VIOLATION: blank channels make the code count only spectra with a positive value. One channel with the values 1 and -1 has the power 2 at
frequency 0, with a blank channel added 4. -/
theorem C123_vcs_violated : ∃ (cube : Arr3 (Option ℝ)) (ps ps' : Arr1 (Option ℝ)), vcsComputePspec cube = .ok ps ∧
    vcsComputePspec (Spec.widened 0 1 cube) = .ok ps' ∧ ps.get 0 = some 2 ∧ ps'.get 0 = some 4 := by
  classical
  obtain ⟨ps, e, _, g⟩ := C04_vcs_spectrum ⟨1, 1, 2, fun _ _ j => if j = 0 then 1 else -1⟩ (by norm_num) (by norm_num) (by norm_num)
  obtain ⟨ps', N, e', _, hN, _, g'⟩ := C04_missing_general (Spec.widened 0 1 ((⟨1, 1, 2, fun _ _ j => if j = 0 then 1 else -1⟩ : Arr3 ℝ).map some))
    (by norm_num [Spec.widened]) (by norm_num [Spec.widened, Arr3.map]) (by norm_num [Spec.widened, Arr3.map])
    ⟨1, by norm_num [Spec.widened, Arr3.map], 0, by norm_num [Spec.widened, Arr3.map], 0, by norm_num [Spec.widened, Arr3.map], by
      norm_num [Spec.widened, Arr3.map]⟩
  refine ⟨_, ps, ps', e, e', ?_, ?_⟩
  · rw [g 0 (by norm_num)]
    norm_num [Spec.specPower, Spec.losSpectrum, dft1, sum_range_succ, om_zero]
  · have h1 : N = 1 := by
      rw [hN, card_eq_one]
      refine ⟨(0, 0), ?_⟩
      ext ⟨i, j⟩
      simp only [mem_filter, mem_product, mem_range, mem_singleton, Prod.mk.injEq]
      constructor
      · rintro ⟨⟨hi, hj⟩, hx⟩
        have hi : i < 1 := hi
        have hj : j < 2 := hj
        refine ⟨by omega, ?_⟩
        by_contra hj0
        obtain rfl : j = 1 := by omega
        refine hx ⟨⟨1, by norm_num [Spec.widened, Arr3.map], by norm_num [Spec.widened, Arr3.map]⟩, fun a ha => ?_⟩
        have ha : a < 2 := ha
        obtain rfl | rfl : a = 0 ∨ a = 1 := by omega
        · norm_num [Spec.widened, Arr3.map]
        · norm_num [Spec.widened, Arr3.map]
      · rintro ⟨rfl, rfl⟩
        refine ⟨⟨by norm_num [Spec.widened, Arr3.map], by norm_num [Spec.widened, Arr3.map]⟩, fun hx => ?_⟩
        have := hx.2 0 (by norm_num [Spec.widened])
        norm_num [Spec.widened, Arr3.map] at this
    rw [g' (by omega) 0 (by norm_num [Spec.widened]), h1]
    norm_num [Spec.specPower, Spec.losSpectrum, dft1, sum_range_succ, om_zero, Spec.widened, Arr3.map, fillNan3]

/-! ### PCA -/

/-- **PCA (partial).** The covariances of the channels of the cube are kept, with or without mean subtraction. Missing: the covariances with the blank
channels are not all zero, see `C123_pca_violated`. -/
theorem C123_pca_partial (eps : ℝ) (ms : Bool) (cube : Arr3 (Option ℝ)) (t b : ℕ) {c d : ℕ} (hc : c < cube.n) (hd : d < cube.n) :
    (varCovCube eps ms (Spec.widened t b cube)).get (t + c) (t + d) = (varCovCube eps ms cube).get c d := by
  have hv : ∀ {c}, c < cube.n → chanVec (Spec.widened t b cube) (t + c) = chanVec cube c := by
    intro c hc
    funext k
    exact wide_in t b cube hc _ _
  have low : ∀ {c d}, c < cube.n → d < cube.n → vcLower eps ms (Spec.widened t b cube) (t + c) (t + d) = vcLower eps ms cube c d := by
    intro c d hc hd
    unfold vcLower
    simp only [hv hc, hv hd, Nat.add_lt_add_iff_left, Nat.add_left_cancel_iff]
    rfl
  unfold varCovCube
  simp only [low hc hd, low hd hc]

/-- VIOLATION: a blank channel after the cube is filled with `eps` and has a covariance with the channels of the cube: `eps` times the mean of
the channel. A blank channel before the cube has none. -/
theorem C123_pca_violated (eps : ℝ) : ∃ cube : Arr3 (Option ℝ), (varCovCube eps false (Spec.widened 0 1 cube)).get 0 1 = eps ∧
    (varCovCube eps false (Spec.widened 1 0 cube)).get 0 1 = 0 := by
  refine ⟨⟨1, 1, 1, fun _ _ _ => some 1⟩, ?_, ?_⟩
  · simp [varCovCube, vcLower, vcEntry, vcCenter, vcFill, chanVec, vecCount, vecNansum, Spec.widened, addO, mulO, divO]
  · simp [varCovCube, vcLower, vcEntry, vcCenter, vcFill, chanVec, vecCount, vecNansum, Spec.widened, addO, mulO, divO]

/-- With mean subtraction a blank channel has no covariance with any channel, itself included. -/
private theorem low_blank (eps : ℝ) (cube : Arr3 (Option ℝ)) (hmp : 0 < cube.m * cube.p) {v w : ℕ}
    (h : (∀ k, chanVec cube v k = none) ∨ ∀ k, chanVec cube w k = none) : (vcLower eps true cube v w).getD 0 = 0 := by
  have hne : ((cube.m * cube.p : ℕ) : ℝ) ≠ 0 := by exact_mod_cast hmp.ne'
  have z : ∀ (x y : ℕ → Option ℝ), (∀ k, x k = some 0) ∨ (∀ k, y k = none) → (vcEntry true (cube.m * cube.p) x y).getD 0 = 0 := by
    intro x y hxy
    have : vecNansum (cube.m * cube.p) (fun k => mulO (x k) (y k)) = 0 := by
      unfold vecNansum
      refine sum_eq_zero fun k _ => ?_
      beta_reduce
      rcases hxy with hx | hy
      · rw [hx k]
        cases y k <;> simp [mulO]
      · rw [hy k]
        cases x k <;> simp [mulO]
    unfold vcEntry
    simp only [this]
    by_cases h0 : (vecCount (cube.m * cube.p) (fun k => mulO (x k) (y k)) : ℝ) - 1 = 0 <;> simp [divO, h0]
  have fill : ∀ {u : ℕ}, (∀ k, chanVec cube u k = none) → ∀ k, vcCenter true (cube.m * cube.p) (vcFill eps (chanVec cube u)) k = some 0 := by
    intro u hu k
    have e : vcFill eps (chanVec cube u) = fun _ => some eps := by
      funext k
      unfold vcFill
      rw [hu k]
      rfl
    unfold vcCenter
    rw [e, if_pos rfl]
    have : divO (some (vecNansum (cube.m * cube.p) fun _ => some eps)) (some ((vecCount (cube.m * cube.p) fun _ => some eps : ℕ) : ℝ)) = some eps := by
      have c : vecCount (cube.m * cube.p) (fun _ => some eps) = cube.m * cube.p := by simp [vecCount]
      rw [c, divO_some hne]
      simp only [vecNansum, Option.getD_some, sum_const, card_range, nsmul_eq_mul]
      congr 1
      field_simp
    simp only [this]
    simp [subO]
  unfold vcLower
  simp only
  split_ifs with h1 h2
  · refine z _ _ ?_
    rcases h with h | h
    · exact Or.inl (fill h)
    · refine Or.inr fun k => ?_
      unfold vcCenter
      rw [if_pos rfl]
      simp only [h k]
      rfl
  · have hv : ∀ k, chanVec cube v k = none := by
      rcases h with h | h
      · exact h
      · rw [← h2]; exact h
    have := z _ (vcCenter true (cube.m * cube.p) (vcFill eps (chanVec cube v))) (Or.inl (fill hv))
    generalize vcEntry true (cube.m * cube.p) _ _ = q at this ⊢
    cases q with
    | none => rfl
    | some q =>
      simp only [Option.getD_some] at this
      simp [mulO, this]
  · rfl

/-- **PCA, mean subtracted.** With mean subtraction the covariances of a blank channel with all channels are zero, the eigenvalues of the widened cube are
those of the cube and zeros, one for each blank channel, and the total variance is the same. -/
theorem C123_pca_mean_sub (eps : ℝ) (cube : Arr3 (Option ℝ)) (hmp : 0 < cube.m * cube.p) (t b : ℕ) :
    (∀ v w, ¬(t ≤ v ∧ v < t + cube.n ∧ t ≤ w ∧ w < t + cube.n) → (varCovCube eps true (Spec.widened t b cube)).get v w = 0) ∧
    ∀ lam V lam' V', Spec.IsEigh cube.n (varCovCube eps true cube).get lam V →
      Spec.IsEigh (t + cube.n + b) (varCovCube eps true (Spec.widened t b cube)).get lam' V' →
      ((List.range (t + cube.n + b)).map lam').Perm ((List.range cube.n).map lam ++ List.replicate (t + b) 0) ∧
      pcaTotal true (sortDesc ((List.range (t + cube.n + b)).map lam')) = pcaTotal true (sortDesc ((List.range cube.n).map lam)) := by
  have blank : ∀ v, ¬(t ≤ v ∧ v < t + cube.n) → ∀ k, chanVec (Spec.widened t b cube) v k = none := fun v hv k => wide_out t b cube hv _ _
  have zero : ∀ v w, ¬(t ≤ v ∧ v < t + cube.n ∧ t ≤ w ∧ w < t + cube.n) → (varCovCube eps true (Spec.widened t b cube)).get v w = 0 := by
    intro v w hvw
    have hb : (∀ k, chanVec (Spec.widened t b cube) v k = none) ∨ ∀ k, chanVec (Spec.widened t b cube) w k = none := by
      by_cases hv : t ≤ v ∧ v < t + cube.n
      · exact Or.inr (blank w fun hw => hvw ⟨hv.1, hv.2, hw⟩)
      · exact Or.inl (blank v hv)
    have l1 := low_blank eps (Spec.widened t b cube) hmp hb
    have l2 := low_blank eps (Spec.widened t b cube) hmp hb.symm
    show (addO _ _).getD 0 = 0
    generalize vcLower eps true (Spec.widened t b cube) v w = q1 at l1 ⊢
    generalize vcLower eps true (Spec.widened t b cube) w v = q2 at l2 ⊢
    cases q1 with
    | none => rfl
    | some q1 =>
      cases q2 with
      | none => rfl
      | some q2 =>
        simp only [Option.getD_some] at l1 l2
        simp [addO, l1, l2]
  refine ⟨zero, fun lam V lam' V' hE hE' => ?_⟩
  -- position of the `q`-th blank channel
  let pos : ℕ → ℕ := fun q => if q < t then q else cube.n + q
  let W : ℕ → ℕ → ℝ := fun i k => if k < cube.n then (if t ≤ i ∧ i < t + cube.n then V (i - t) k else 0) else if i = pos (k - cube.n) then 1 else 0
  have posb : ∀ q, ¬(t ≤ pos q ∧ pos q < t + cube.n) := by
    intro q
    simp only [pos]
    split_ifs <;> omega
  have poslt : ∀ q < t + b, pos q < t + cube.n + b := by
    intro q hq
    simp only [pos]
    split_ifs <;> omega
  have posinj : ∀ q q', pos q = pos q' → q = q' := by
    intro q q' h
    simp only [pos] at h
    split_ifs at h <;> omega
  have hW : Spec.IsEigh (t + cube.n + b) (varCovCube eps true (Spec.widened t b cube)).get (fun k => if k < cube.n then lam k else 0) W := by
    constructor
    · intro k hk l hl
      by_cases hkn : k < cube.n
      · by_cases hln : l < cube.n
        · rw [← hE.1 k hkn l hln]
          refine (sum_frame t cube.n b _ fun i _ hi => ?_).trans (sum_congr rfl fun i hi => ?_)
          · simp only [W, if_pos hkn, if_neg hi, zero_mul]
          · have := mem_range.1 hi
            simp only [W, if_pos hkn, if_pos hln]
            rw [if_pos (by omega), if_pos (by omega), Nat.add_sub_cancel_left]
        · rw [if_neg (by omega)]
          refine sum_eq_zero fun i _ => ?_
          simp only [W, if_pos hkn, if_neg hln]
          by_cases hi : i = pos (l - cube.n)
          · rw [if_neg (by rw [hi]; exact posb _), zero_mul]
          · rw [if_neg hi, mul_zero]
      · by_cases hln : l < cube.n
        · rw [if_neg (by omega)]
          refine sum_eq_zero fun i _ => ?_
          simp only [W, if_neg hkn, if_pos hln]
          by_cases hi : i = pos (k - cube.n)
          · rw [if_neg (c := t ≤ i ∧ i < t + cube.n) (by rw [hi]; exact posb _), mul_zero]
          · rw [if_neg hi, zero_mul]
        · simp only [W, if_neg hkn, if_neg hln]
          rw [sum_eq_single (pos (k - cube.n))]
          · rw [if_pos rfl, one_mul]
            refine if_congr ⟨fun h => ?_, fun h => by rw [h]⟩ rfl rfl
            have := posinj _ _ h
            omega
          · intro i _ hi
            rw [if_neg hi, zero_mul]
          · intro h
            exact absurd (mem_range.2 (poslt _ (by omega))) h
    · intro i hi k hk
      by_cases hkn : k < cube.n
      · simp only [if_pos hkn]
        by_cases hin : t ≤ i ∧ i < t + cube.n
        · have := hE.2 (i - t) (by omega) k hkn
          refine Eq.trans ?_ (this.trans ?_)
          · refine (sum_frame t cube.n b _ fun j _ hj => ?_).trans (sum_congr rfl fun j hj => ?_)
            · simp only [W, if_pos hkn, if_neg hj, mul_zero]
            · have hj := mem_range.1 hj
              have e := C123_pca_partial eps true cube t b (c := i - t) (d := j) (by omega) hj
              rw [show t + (i - t) = i by omega] at e
              rw [e]
              simp only [W, if_pos hkn]
              rw [if_pos (by omega), Nat.add_sub_cancel_left]
          · simp only [W, if_pos hkn, if_pos hin]
        · simp only [W, if_pos hkn, if_neg hin, mul_zero]
          refine sum_eq_zero fun j _ => ?_
          rw [zero i j (fun h => hin ⟨h.1, h.2.1⟩), zero_mul]
      · simp only [if_neg hkn, zero_mul]
        refine sum_eq_zero fun j _ => ?_
        simp only [W, if_neg hkn]
        by_cases hj : j = pos (k - cube.n)
        · rw [zero i j (fun h => posb (k - cube.n) (by rw [← hj]; exact ⟨h.2.2.1, h.2.2.2⟩)), zero_mul]
        · rw [if_neg hj, mul_zero]
  have hp := eigh_perm (t + cube.n + b) _ _ (fun _ _ _ _ => rfl) lam' _ V' W hE' hW
  have hl : (List.range (t + cube.n + b)).map (fun k => if k < cube.n then lam k else 0) = (List.range cube.n).map lam ++ List.replicate (t + b) 0 := by
    rw [show t + cube.n + b = cube.n + (t + b) by omega, List.range_add, List.map_append, List.map_map]
    congr 1
    · refine List.map_congr_left fun k hk => ?_
      rw [if_pos (List.mem_range.1 hk)]
    · rw [List.eq_replicate_iff]
      refine ⟨by simp, fun x hx => ?_⟩
      obtain ⟨k, _, rfl⟩ := List.mem_map.1 hx
      simp
  rw [hl] at hp
  refine ⟨hp, ?_⟩
  unfold pcaTotal
  rw [if_pos rfl, if_pos rfl, (sortDesc_perm _).sum_eq, (sortDesc_perm _).sum_eq, hp.sum_eq]
  simp

/-! ### Cramer -/

private theorem vals_flat (t b : ℕ) (cube : Arr3 (Option ℝ)) : validVals (Spec.widened t b cube).flat = validVals cube.flat := by
  have hch : ∀ v, validVals ((Spec.widened t b cube).channel v) = if t ≤ v ∧ v < t + cube.n then validVals (cube.channel (v - t)) else [] := by
    intro v
    unfold validVals
    by_cases h : t ≤ v ∧ v < t + cube.n
    · rw [if_pos h]
      congr 1
      unfold Arr3.channel
      simp only [Spec.widened, if_pos h]
    · rw [if_neg h, List.filterMap_eq_nil_iff]
      intro x hx
      unfold Arr3.channel at hx
      simp only [wide_out t b cube h, List.mem_flatMap, List.mem_map] at hx
      obtain ⟨_, _, _, _, rfl⟩ := hx
      rfl
  have hf : ∀ a : Arr3 (Option ℝ), validVals a.flat = (List.range a.n).flatMap fun v => validVals (a.channel v) := by
    intro a
    unfold validVals Arr3.flat
    rw [List.filterMap_flatMap]
  rw [hf, hf]
  simp only [hch]
  show (List.range (t + cube.n + b)).flatMap _ = _
  rw [List.range_add, List.range_add, List.flatMap_append, List.flatMap_append, List.flatMap_map, List.flatMap_map]
  have e1 : (List.range t).flatMap (fun v => if t ≤ v ∧ v < t + cube.n then validVals (cube.channel (v - t)) else []) = [] := by
    rw [List.flatMap_eq_nil_iff]
    intro v hv
    have := List.mem_range.1 hv
    rw [if_neg (by omega)]
  have e2 : (List.range b).flatMap (fun v => if t ≤ t + cube.n + v ∧ t + cube.n + v < t + cube.n then validVals (cube.channel (t + cube.n + v - t)) else []) = [] := by
    rw [List.flatMap_eq_nil_iff]
    intro v hv
    rw [if_neg (by omega)]
  rw [e1, e2, List.nil_append, List.append_nil]
  refine List.flatMap_congr fun v hv => ?_
  have := List.mem_range.1 hv
  rw [if_pos (by omega), Nat.add_sub_cancel_left]

/-- **Cramer data (partial).** Blank channels keep the rows of the other channels and add rows of zeros. The values taken from every channel and the scale
are the same. Missing: the distance, where the rows of zeros count as channels. -/
theorem C123_cramer_partial (cube : Arr3 (Option ℝ)) (p : ℝ) (noise : Option ℝ) (out : Arr2 (Option ℝ)) (h : intensityData cube p noise true = .ok out)
    (hmax : nanmax cube.flat ≠ some 0) (t b : ℕ) :
    ∃ out', intensityData (Spec.widened t b cube) p noise true = .ok out' ∧ out.n = cube.n ∧ out'.n = t + cube.n + b ∧ out'.m = out.m ∧
      (∀ v < cube.n, ∀ k < out.m, out'.get (t + v) k = out.get v k) ∧
      ∀ v < t + cube.n + b, ¬(t ≤ v ∧ v < t + cube.n) → ∀ k < out.m, out'.get v k = divO (some 0) (nanmax cube.flat) := by
  have hM : nanmax (Spec.widened t b cube).flat = nanmax cube.flat := by
    unfold nanmax
    rw [vals_flat]
  unfold intensityData at h ⊢
  simp only [if_true, true_and] at h ⊢
  split_ifs at h with h1 h2
  rw [if_neg (show ¬ npRound (p * ((Spec.widened t b cube).m : ℝ) * ((Spec.widened t b cube).p : ℝ)) < 0 from h1),
    if_neg (show ¬ (Spec.widened t b cube).n * (Spec.widened t b cube).m * (Spec.widened t b cube).p = 0 by
      show ¬ (t + cube.n + b) * cube.m * cube.p = 0
      simp only [mul_eq_zero, not_or] at h2 ⊢
      omega), hM, if_neg hmax]
  simp only [Except.ok.injEq] at h
  subst h
  refine ⟨_, rfl, rfl, rfl, rfl, fun v hv k _ => ?_, fun v hv ho k hk => ?_⟩
  · show divO (some ((padOrCut (sortDesc (keptValues (Spec.widened t b cube) noise (t + v))) _).getD k 0)) _ = divO _ _
    have : keptValues (Spec.widened t b cube) noise (t + v) = keptValues cube noise v := by
      unfold keptValues Arr3.channel
      simp only [wide_in t b cube hv]
      rfl
    rw [this]
    rfl
  · show divO (some ((padOrCut (sortDesc (keptValues (Spec.widened t b cube) noise v)) _).getD k 0)) _ = divO _ _
    have : keptValues (Spec.widened t b cube) noise v = [] := by
      unfold keptValues Arr3.channel
      simp only [wide_out t b cube ho]
      have : validVals ((List.range (Spec.widened t b cube).m).flatMap fun i => (List.range (Spec.widened t b cube).p).map fun _ => (none : Option ℝ)) = [] := by
        unfold validVals
        rw [List.filterMap_eq_nil_iff]
        intro x hx
        simp only [List.mem_flatMap, List.mem_map] at hx
        obtain ⟨_, _, _, _, rfl⟩ := hx
        rfl
      rw [this]
      rfl
    rw [this]
    unfold padOrCut sortDesc
    simp [List.getD_eq_getElem?_getD, List.getElem?_replicate]
    split_ifs <;> simp

/-- VIOLATION: the rows of zeros count. A cube of one voxel has no distance from itself; with a blank channel added to one of the two the distance is 1/6. -/
theorem C123_cramer_violated : ∃ (cube : Arr3 (Option ℝ)) (d d' : Arr2 (Option ℝ)), intensityData cube 1 none true = .ok d ∧
    intensityData (Spec.widened 0 1 cube) 1 none true = .ok d' ∧ cramerStatistic d d = .ok 0 ∧ cramerStatistic d' d = .ok (1 / 6) := by
  have hr : npRound (1 * ((1 : ℕ) : ℝ) * ((1 : ℕ) : ℝ)) = 1 := by norm_num [npRound]
  have hmax : nanmax (⟨1, 1, 1, fun _ _ _ => some 1⟩ : Arr3 (Option ℝ)).flat = some 1 := by
    simp [Arr3.flat, Arr3.channel, nanmax, validVals, maxO]
  have hk : keptValues (⟨1, 1, 1, fun _ _ _ => some 1⟩ : Arr3 (Option ℝ)) none 0 = [1] := by
    simp [keptValues, Arr3.channel, validVals]
  obtain ⟨d, e, dn, dm, dg⟩ : ∃ d, intensityData ⟨1, 1, 1, fun _ _ _ => some 1⟩ 1 none true = .ok d ∧ d.n = 1 ∧ d.m = 1 ∧ d.get 0 0 = some 1 := by
    refine ⟨⟨1, 1, fun dv k => divO (some ((padOrCut (sortDesc (keptValues (⟨1, 1, 1, fun _ _ _ => some 1⟩ : Arr3 (Option ℝ)) none dv)) 1).getD k 0)) (some 1)⟩,
      ?_, rfl, rfl, ?_⟩
    · unfold intensityData
      simp only [hr, hmax]
      norm_num
    · show divO (some ((padOrCut (sortDesc (keptValues _ none 0)) 1).getD 0 0)) (some 1) = _
      rw [hk]
      norm_num [padOrCut, sortDesc, divO]
  obtain ⟨d', h', _, n', m', g1, g2⟩ := C123_cramer_partial ⟨1, 1, 1, fun _ _ _ => some 1⟩ 1 none _ e (by rw [hmax]; norm_num) 0 1
  have n' : d'.n = 2 := n'
  have m' : d'.m = 1 := m'.trans dm
  have q0 : d'.get 0 0 = some 1 := (g1 0 (by norm_num) 0 (by omega)).trans dg
  have q1 : d'.get 1 0 = some 0 := by
    rw [g2 1 (by norm_num) (by norm_num) 0 (by omega), hmax]
    norm_num [divO]
  have v : SkValid d := by
    refine ⟨by omega, by omega, fun i hi j hj => ?_⟩
    obtain rfl : i = 0 := by omega
    obtain rfl : j = 0 := by omega
    rw [dg]
    simp
  have v' : SkValid d' := by
    refine ⟨by omega, by omega, fun i hi j hj => ?_⟩
    obtain rfl : j = 0 := by omega
    obtain rfl | rfl : i = 0 ∨ i = 1 := by omega
    · rw [q0]; simp
    · rw [q1]; simp
  refine ⟨_, d, d', e, h', ?_, ?_⟩
  · unfold cramerStatistic
    dsimp only
    rw [ite_self]
    rw [if_pos ⟨v, v, rfl⟩]
    simp [cramerTerms, rootDist, dn, dm]
  · unfold cramerStatistic
    have hle : d.n ≤ d'.n := by omega
    dsimp only
    rw [show (if d.n ≤ d'.n then d' else d) = d' from if_pos hle, show (if d.n ≤ d'.n then d else d') = d from if_pos hle]
    rw [if_pos ⟨v', v, by omega⟩]
    norm_num [cramerTerms, rootDist, dn, dm, n', m', dg, q0, q1, sum_range_succ]

/-- Hypotheses of `C123_vcs_partial` are met: one spectrum of two channels, two blank channels added; frequency 1 of two channels is frequency 2 of four. -/
example : (∃ a < 2, ∃ i < 1, ∃ j < 1, (⟨2, 1, 1, fun _ _ _ => some 3⟩ : Arr3 (Option ℝ)).get a i j ≠ none) ∧
    (∀ a i j x, (⟨2, 1, 1, fun _ _ _ => some 3⟩ : Arr3 (Option ℝ)).get a i j = some x → 0 < x) ∧
    ((2 : ℕ) : ℝ) / ((0 + 2 + 2 : ℕ) : ℝ) = ((1 : ℕ) : ℝ) / ((2 : ℕ) : ℝ) := by
  refine ⟨⟨0, by norm_num, 0, by norm_num, 0, by norm_num, by simp⟩, fun a i j x h => ?_, by norm_num⟩
  have : (3 : ℝ) = x := by simpa using h
  rw [← this]
  norm_num

/-- Hypotheses of `C123_pca_mean_sub` are met: one channel with the values 1 and 3 has the variance 2; with one blank channel the eigenvalues are 2 and 0. -/
example : Spec.IsEigh 1 (varCovCube 0 true ⟨1, 1, 2, fun _ _ j => if j = 0 then some 1 else some 3⟩).get (fun _ => 2) (fun _ _ => 1) ∧
    Spec.IsEigh (0 + 1 + 1) (varCovCube 0 true (Spec.widened 0 1 ⟨1, 1, 2, fun _ _ j => if j = 0 then some 1 else some 3⟩)).get
      (fun k => if k = 0 then 2 else 0) (fun i k => if i = k then 1 else 0) := by
  have h00 : (varCovCube 0 true ⟨1, 1, 2, fun _ _ j => if j = 0 then some 1 else some 3⟩).get 0 0 = 2 := by
    norm_num [varCovCube, vcLower, vcEntry, vcCenter, vcFill, chanVec, vecCount, vecNansum, sum_range_succ, addO, mulO, divO, subO]
  have z := (C123_pca_mean_sub 0 ⟨1, 1, 2, fun _ _ j => if j = 0 then some 1 else some 3⟩ (by norm_num) 0 1).1
  have e := C123_pca_partial 0 true ⟨1, 1, 2, fun _ _ j => if j = 0 then some 1 else some 3⟩ 0 1 (c := 0) (d := 0) (by norm_num) (by norm_num)
  rw [h00] at e
  refine ⟨⟨fun k hk l hl => ?_, fun i hi k hk => ?_⟩, ⟨fun k hk l hl => ?_, fun i hi k hk => ?_⟩⟩
  · obtain rfl : k = 0 := by omega
    obtain rfl : l = 0 := by omega
    simp
  · obtain rfl : i = 0 := by omega
    rw [sum_range_one, h00]
  · obtain rfl | rfl : k = 0 ∨ k = 1 := by omega
    all_goals
      obtain rfl | rfl : l = 0 ∨ l = 1 := by omega
      all_goals simp
  · have z01 := z 0 1 (by norm_num)
    have z10 := z 1 0 (by norm_num)
    have z11 := z 1 1 (by norm_num)
    obtain rfl | rfl : k = 0 ∨ k = 1 := by omega
    all_goals
      obtain rfl | rfl : i = 0 ∨ i = 1 := by omega
      all_goals
        simp only [sum_range_succ, sum_range_zero, zero_add]
        simp only [Nat.add_zero] at e
        norm_num [z01, z10, z11, e]

end TS
