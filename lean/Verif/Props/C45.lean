import Verif.Model.Mvc
import Verif.Lemmas.PSpec
import Verif.Props.C08
import Mathlib.Tactic.Linarith

/-! C45 — the spectrum of the modified velocity centroids. -/

namespace TS
open Finset

namespace Spec

/-- A map without missing values. -/
def fullMap (n m : ℕ) (f : ℕ → ℕ → ℝ) : Arr2 (Option ℝ) := ⟨n, m, fun i j => some (f i j)⟩

/-- `|fft2(f)|` at an integer frequency. -/
noncomputable def amp (n m : ℕ) (f : ℕ → ℕ → ℝ) (k l : ℤ) : ℝ := ‖dft2 n m (fun i j => (f i j : ℂ)) k l‖

/-- Mean over the map. -/
noncomputable def mapMean (n m : ℕ) (f : ℕ → ℕ → ℝ) : ℝ := (∑ i ∈ range n, ∑ j ∈ range m, f i j) / (n * m)

/-- Centred array whose entry at frequency `(k, l)` is `g k l`. -/
def IsCentred (ps : Arr2 (Option ℝ)) (n m : ℕ) (g : ℤ → ℤ → ℝ) : Prop :=
  ps.n = n ∧ ps.m = m ∧ ∀ i < n, ∀ j < m,
    ps.get i j = some (g ((i : ℤ) - (n / 2 : ℕ)) ((j : ℤ) - (m / 2 : ℕ)))

/-- The maps given are of one shape and hold numbers only. -/
noncomputable def mvcSpec (n m : ℕ) (V I L w : ℕ → ℕ → ℝ) (k l : ℤ) : ℝ :=
  (amp n m (fun i j => V i j * I i j * w i j) k l -
    mapMean n m (fun i j => L i j ^ 2 + V i j ^ 2 * w i j) * amp n m (fun i j => I i j * w i j) k l) ^ 2

end Spec
open Spec

private theorem fftO_full (n m : ℕ) (hn : 0 < n) (hm : 0 < m) (a : Arr2 (Option ℝ)) (f : ℕ → ℕ → ℝ)
    (hsn : a.n = n) (hsm : a.m = m) (ha : ∀ i < n, ∀ j < m, a.get i j = some (f i j)) :
    ∃ b, rfftToFftO a = .ok b ∧ b.n = n ∧ b.m = m ∧
      ∀ i < n, ∀ j < m, b.get i j = some (amp n m f i j) := by
  obtain ⟨b, hb, h1, h2, h3⟩ := C01_rfft_to_fft_2d (fillNan 0 a) (by show 0 < a.n; omega) (by show 0 < a.m; omega)
  have hno : ¬ ∃ i < a.n, ∃ j < a.m, a.get i j = none := by
    rintro ⟨i, hi, j, hj, h⟩
    rw [ha i (by omega) j (by omega)] at h
    cases h
  have hbn : b.n = n := h1.trans hsn
  have hbm : b.m = m := h2.trans hsm
  refine ⟨b.map some, ?_, hbn, hbm, ?_⟩
  · unfold rfftToFftO
    rw [hb]
    simp only [bind, Except.bind, pure, Except.pure, if_neg hno]
  · intro i hi j hj
    show some (b.get i j) = _
    rw [h3 i (by omega) j (by omega)]
    congr 1
    show ‖dft2 a.n a.m _ _ _‖ = _
    unfold amp
    rw [hsn, hsm]
    congr 1
    apply dft2_congr
    intro p hp q hq
    simp [fillNan, Arr2.map, ha p hp q hq]

private theorem nanmean_full (n m : ℕ) (a : Arr2 (Option ℝ)) (f : ℕ → ℕ → ℝ) (hn : 0 < n) (hm : 0 < m)
    (hsn : a.n = n) (hsm : a.m = m) (ha : ∀ i < n, ∀ j < m, a.get i j = some (f i j)) :
    a.nanmean = some (mapMean n m f) := by
  have h1 : a.nansum = ∑ i ∈ range n, ∑ j ∈ range m, f i j := by
    unfold Arr2.nansum
    rw [hsn, hsm]
    apply sum_congr rfl; intro i hi
    apply sum_congr rfl; intro j hj
    rw [ha i (mem_range.1 hi) j (mem_range.1 hj)]; rfl
  have h2 : a.nFinite = n * m := by
    unfold Arr2.nFinite
    rw [hsn, hsm]
    have : ∀ i ∈ range n, (∑ j ∈ range m, if (a.get i j).isSome = true then 1 else 0) = m := by
      intro i hi
      rw [sum_congr rfl (g := fun _ => 1)]
      · simp
      · intro j hj
        rw [ha i (mem_range.1 hi) j (mem_range.1 hj)]; rfl
    rw [sum_congr rfl this]
    simp
  have hpos : ((n * m : ℕ) : ℝ) ≠ 0 := by
    have : 0 < n * m := Nat.mul_pos hn hm
    exact_mod_cast this.ne'
  unfold Arr2.nanmean mapMean
  rw [h1, h2]
  simp only [divO, bind, Option.bind]
  rw [if_neg hpos]
  push_cast
  rfl

private theorem centred_amp {n m : ℕ} (hn : 0 < n) (hm : 0 < m) (f : ℕ → ℕ → ℝ) (i j : ℕ) :
    amp n m f (rollIx n ((n / 2 : ℕ) : ℤ) i : ℕ) (rollIx m ((m / 2 : ℕ) : ℤ) j : ℕ) =
      amp n m f ((i : ℤ) - (n / 2 : ℕ)) ((j : ℤ) - (m / 2 : ℕ)) := by
  unfold amp
  rw [dft2_congr_freq _ (dvd_rollIx hn _ _) (dvd_rollIx hm _ _)]

private theorem mvc_core (n m : ℕ) (hn : 0 < n) (hm : 0 < m) (s : MvcState) (V I L : ℕ → ℕ → ℝ)
    (h1 : s.centroid = fullMap n m V) (h2 : s.moment0 = fullMap n m I) (h3 : s.linewidth = fullMap n m L)
    (apod : Option ApodArgs) (w : Option (Arr2 ℝ))
    (hw : mvcWindow s apod = .ok w) :
    ∃ ps, mvcPspec s apod = .ok ps ∧
      IsCentred ps n m (mvcSpec n m V I L (winAt w)) := by
  have hcn : s.centroid.n = n := by rw [h1]; rfl
  have hcm : s.centroid.m = m := by rw [h1]; rfl
  set win : ℕ → ℕ → ℝ := winAt w with hwin
  obtain ⟨b1, e1, n1, m1, g1⟩ := fftO_full n m hn hm (mvcTerms s w).1 (fun i j => V i j * I i j * win i j)
    hcn hcm (by
      intro i _ j _
      simp only [mvcTerms, h1, h2, fullMap, mulO]; rfl)
  obtain ⟨b2, e2, n2, m2, g2⟩ := fftO_full n m hn hm (mvcTerms s w).2.2 (fun i j => I i j * win i j)
    hcn hcm (by
      intro i _ j _
      simp only [mvcTerms, h2, fullMap, mulO]; rfl)
  have e3 := nanmean_full n m (mvcTerms s w).2.1 (fun i j => L i j ^ 2 + V i j ^ 2 * win i j) hn hm hcn hcm (by
      intro i _ j _
      simp only [mvcTerms, h1, h3, fullMap, mulO, addO, sqO]; rfl)
  unfold mvcPspec mvcSpectrum
  simp only [hw, bind, Except.bind, pure, Except.pure, e1, e2, e3]
  refine ⟨_, rfl, n1, m1, ?_⟩
  intro i hi j hj
  simp only [Arr2.map, Arr2.fftshift, Arr2.roll0, Arr2.roll1]
  rw [n1, m1, g1 _ (rollIx_lt hn _ _) _ (rollIx_lt hm _ _), g2 _ (rollIx_lt hn _ _) _ (rollIx_lt hm _ _)]
  rw [centred_amp hn hm, centred_amp hn hm]
  show some (|_| ^ 2) = _
  rw [sq_abs]
  rfl

/-- Construction keeps complete maps as they are; maps of different shapes raise. -/
theorem C45_init (c m0 lw : Arr2 (Option ℝ)) :
    ((∃ s, mvcMaps c m0 lw = .ok s) ↔ (c.n = m0.n ∧ c.m = m0.m) ∧ c.n = lw.n ∧ c.m = lw.m) ∧
    ∀ n m V I L, mvcMaps (fullMap n m V) (fullMap n m I) (fullMap n m L) =
      .ok ⟨fullMap n m V, fullMap n m I, fullMap n m L⟩ := by
  constructor
  · unfold mvcMaps
    split_ifs with h
    · constructor
      · rintro ⟨s, hs⟩; cases hs
      · rintro ⟨a, b⟩; rcases h with h | h <;> exact absurd (by assumption) h
    · push Not at h
      exact ⟨fun _ => h, fun _ => ⟨_, rfl⟩⟩
  · intro n m V I L
    unfold mvcMaps
    rw [if_neg (by simp [fullMap])]
    simp [fullMap]

/-- Complete maps, no window: what the spectrum is.  Missing for the full property: it squares the
difference of two *moduli* (`C45_not_difference_spectrum`), and missing pixels (`C45_one_map_missing`,
`C45_missing_pixels_dilute`). -/
theorem C45_spectrum_partial (n m : ℕ) (hn : 0 < n) (hm : 0 < m) (V I L : ℕ → ℕ → ℝ) :
    ∃ ps, mvcPspec ⟨fullMap n m V, fullMap n m I, fullMap n m L⟩ none = .ok ps ∧
      IsCentred ps n m (fun k l => (amp n m (fun i j => V i j * I i j) k l -
        mapMean n m (fun i j => L i j ^ 2 + V i j ^ 2) * amp n m I k l) ^ 2) := by
  obtain ⟨ps, h, hc⟩ := mvc_core n m hn hm ⟨fullMap n m V, fullMap n m I, fullMap n m L⟩ V I L rfl rfl rfl none none rfl
  refine ⟨ps, h, ?_⟩
  have : (fun k l => (amp n m (fun i j => V i j * I i j) k l -
        mapMean n m (fun i j => L i j ^ 2 + V i j ^ 2) * amp n m I k l) ^ 2) =
      mvcSpec n m V I L (fun _ _ => 1) := by
    funext k l
    unfold mvcSpec
    simp only [mul_one]
  rw [this]
  exact hc

/-- With a window the velocity and intensity terms are tapered, while in the mean square velocity only
the centroid part is. Missing: the linewidth part, which should be tapered too, and the violations of `C45_spectrum_partial`. -/
theorem C45_tapered_partial (n m : ℕ) (hn : 0 < n) (hm : 0 < m) (V I L : ℕ → ℕ → ℝ) (name : String)
    (alpha beta : ℝ) (hname : name ∈ ["splitcosinebell", "hanning", "tukey", "cosinebell"]) :
    ∃ w ps, IsTaper w n m ∧
      mvcPspec ⟨fullMap n m V, fullMap n m I, fullMap n m L⟩ (some ⟨name, alpha, beta⟩) = .ok ps ∧
      IsCentred ps n m (fun k l => (amp n m (fun i j => V i j * I i j * w.get i j) k l -
        mapMean n m (fun i j => L i j ^ 2 + V i j ^ 2 * w.get i j) *
          amp n m (fun i j => I i j * w.get i j) k l) ^ 2) := by
  obtain ⟨w, hw, hT⟩ := ((C08_apodizing_kernel name alpha beta 0 n m).1 hname).1
  obtain ⟨ps, h, hc⟩ := mvc_core n m hn hm ⟨fullMap n m V, fullMap n m I, fullMap n m L⟩ V I L rfl rfl rfl
    (some ⟨name, alpha, beta⟩) (some w) (by
      show Except.map some (apodizingKernel name alpha beta [n, m]) = _
      rw [hw]; rfl)
  exact ⟨w, ps, hT, h, hc⟩

/-- Non-negative everywhere. -/
theorem C45_nonneg (s : MvcState) (apod : Option ApodArgs) (ps : Arr2 (Option ℝ))
    (h : mvcPspec s apod = .ok ps) (i j : ℕ) (v : ℝ) (hv : ps.get i j = some v) : 0 ≤ v := by
  unfold mvcPspec at h
  simp only [bind, Except.bind] at h
  split at h
  · cases h
  unfold mvcSpectrum at h
  simp only [bind, Except.bind, pure, Except.pure] at h
  split at h
  · cases h
  split at h
  · cases h
  cases h
  simp only [Arr2.map, Arr2.fftshift, Arr2.roll0, Arr2.roll1, Option.map_eq_some_iff] at hv
  obtain ⟨x, _, rfl⟩ := hv
  positivity

private theorem amp_zero (n m : ℕ) (k l : ℤ) : amp n m (fun _ _ => 0) k l = 0 := by
  unfold amp dft2; simp

private theorem amp_scale (n m : ℕ) (c : ℝ) (f : ℕ → ℕ → ℝ) (k l : ℤ) :
    amp n m (fun i j => c * f i j) k l = |c| * amp n m f k l := by
  unfold amp
  have : (fun i j => ((c * f i j : ℝ) : ℂ)) = fun i j => (c : ℂ) * (f i j : ℂ) := by funext i j; push_cast; rfl
  rw [this, dft2_const_mul, norm_mul]
  simp

/-- No motion (centroid and line width zero everywhere): no power. -/
theorem C45_no_motion (n m : ℕ) (hn : 0 < n) (hm : 0 < m) (I : ℕ → ℕ → ℝ) :
    ∃ ps, mvcPspec ⟨fullMap n m (fun _ _ => 0), fullMap n m I, fullMap n m (fun _ _ => 0)⟩ none = .ok ps ∧
      IsCentred ps n m (fun _ _ => 0) := by
  obtain ⟨ps, h, hc⟩ := C45_spectrum_partial n m hn hm (fun _ _ => 0) I (fun _ _ => 0)
  refine ⟨ps, h, hc.1, hc.2.1, ?_⟩
  intro i hi j hj
  rw [hc.2.2 i hi j hj]
  have : mapMean n m (fun _ _ => (0 : ℝ) ^ 2 + (0 : ℝ) ^ 2) = 0 := by unfold mapMean; simp
  rw [this]
  simp [amp_zero]

/-- Multiplying the intensity by `c` multiplies the spectrum by `c²`. -/
theorem C45_scale (n m : ℕ) (hn : 0 < n) (hm : 0 < m) (V I L : ℕ → ℕ → ℝ) (c : ℝ) :
    ∃ (g : ℤ → ℤ → ℝ) (ps ps' : Arr2 (Option ℝ)),
      mvcPspec ⟨fullMap n m V, fullMap n m I, fullMap n m L⟩ none = .ok ps ∧ IsCentred ps n m g ∧
      mvcPspec ⟨fullMap n m V, fullMap n m (fun i j => c * I i j), fullMap n m L⟩ none = .ok ps' ∧
      IsCentred ps' n m (fun k l => c ^ 2 * g k l) := by
  obtain ⟨ps, h, hc⟩ := C45_spectrum_partial n m hn hm V I L
  obtain ⟨ps', h', hc'⟩ := C45_spectrum_partial n m hn hm V (fun i j => c * I i j) L
  refine ⟨_, ps, ps', h, hc, h', hc'.1, hc'.2.1, ?_⟩
  intro i hi j hj
  rw [hc'.2.2 i hi j hj]
  congr 1
  have : (fun i j => V i j * (c * I i j)) = fun i j => c * (V i j * I i j) := by funext i j; ring
  simp only
  rw [this, amp_scale, amp_scale]
  rw [show ∀ a b t : ℝ, (|c| * a - t * (|c| * b)) ^ 2 = |c| ^ 2 * (a - t * b) ^ 2 by intro a b t; ring, sq_abs]

/-- Reversing every velocity changes nothing although `V·I - <v²>·I` changes: the code subtracts moduli. -/
theorem C45_not_difference_spectrum : ∃ (V I L : ℕ → ℕ → ℝ) (ps : Arr2 (Option ℝ)),
    mvcPspec ⟨fullMap 1 2 V, fullMap 1 2 I, fullMap 1 2 L⟩ none = .ok ps ∧
    ¬ IsCentred ps 1 2 (fun k l => amp 1 2 (fun i j => V i j * I i j -
      mapMean 1 2 (fun i j => L i j ^ 2 + V i j ^ 2) * I i j) k l ^ 2) := by
  obtain ⟨ps, h, hc⟩ := C45_spectrum_partial 1 2 (by norm_num) (by norm_num) (fun _ _ => -1) (fun _ _ => 1) (fun _ _ => 0)
  refine ⟨_, _, _, ps, h, ?_⟩
  intro hw
  have h1 := hc.2.2 0 (by norm_num) 1 (by norm_num)
  have h2 := hw.2.2 0 (by norm_num) 1 (by norm_num)
  rw [h1] at h2
  have hm : mapMean 1 2 (fun _ _ => (0 : ℝ) ^ 2 + (-1 : ℝ) ^ 2) = 1 := by
    unfold mapMean; norm_num
  have a1 : ∀ c : ℝ, amp 1 2 (fun _ _ => c) (((0 : ℕ) : ℤ) - (1 / 2 : ℕ)) (((1 : ℕ) : ℤ) - (2 / 2 : ℕ)) = 2 * |c| := by
    intro c
    unfold amp dft2
    have e : (((0 : ℕ) : ℤ) - ((1 / 2 : ℕ) : ℤ)) = 0 := by norm_num
    have e' : (((1 : ℕ) : ℤ) - ((2 / 2 : ℕ) : ℤ)) = 0 := by norm_num
    rw [e, e']
    simp only [mul_zero, om_zero, mul_one, sum_range_succ, sum_range_zero, zero_add]
    rw [← two_mul, norm_mul]
    simp
  rw [hm] at h2
  simp only [a1] at h2
  norm_num at h2

/-- A pixel missing in one map only is not masked, and makes every frequency NaN. -/
theorem C45_one_map_missing (n m : ℕ) (hn : 0 < n) (hm : 0 < m) (V I L : ℕ → ℕ → ℝ) (p q : ℕ) (hp : p < n) (hq : q < m) :
    let c : Arr2 (Option ℝ) := ⟨n, m, fun i j => if i = p ∧ j = q then none else some (V i j)⟩
    ∃ s ps, mvcMaps c (fullMap n m I) (fullMap n m L) = .ok s ∧ mvcPspec s none = .ok ps ∧
      ∀ i < n, ∀ j < m, ps.get i j = none := by
  intro c
  have hs : mvcMaps c (fullMap n m I) (fullMap n m L) = .ok ⟨c, fullMap n m I, fullMap n m L⟩ := by
    unfold mvcMaps
    rw [if_neg (by simp [fullMap, c])]
    simp [fullMap, c]
  set s : MvcState := ⟨c, fullMap n m I, fullMap n m L⟩ with hsdef
  obtain ⟨b, hb, h1, h2, _⟩ := C01_rfft_to_fft_2d (fillNan 0 (mvcTerms s none).1) hn hm
  obtain ⟨b', hb', _⟩ := C01_rfft_to_fft_2d (fillNan 0 (mvcTerms s none).2.2) hn hm
  have hyes : ∃ i < (mvcTerms s none).1.n, ∃ j < (mvcTerms s none).1.m, (mvcTerms s none).1.get i j = none :=
    ⟨p, hp, q, hq, by simp [mvcTerms, hsdef, c, mulO]⟩
  have e1 : rfftToFftO (mvcTerms s none).1 = .ok (b.map (fun _ => none)) := by
    unfold rfftToFftO
    rw [hb]
    simp only [bind, Except.bind, pure, Except.pure, if_pos hyes]
  have e2 : ∃ b'', rfftToFftO (mvcTerms s none).2.2 = .ok b'' := by
    unfold rfftToFftO
    rw [hb']
    exact ⟨_, rfl⟩
  obtain ⟨b'', e2⟩ := e2
  refine ⟨s, ⟨b.n, b.m, fun _ _ => none⟩, hs, ?_, fun _ _ _ _ => rfl⟩
  unfold mvcPspec mvcSpectrum mvcWindow
  simp only [bind, Except.bind, pure, Except.pure, e1, e2]
  rfl

/-- Pixels missing in all maps are counted as pixels without motion: they dilute the mean square
velocity.  Here half the map is missing, the rest moves at velocity 1, and the mean is 1/2. -/
theorem C45_missing_pixels_dilute :
    let c : Arr2 (Option ℝ) := ⟨1, 2, fun _ j => if j = 0 then none else some 1⟩
    let lw : Arr2 (Option ℝ) := ⟨1, 2, fun _ j => if j = 0 then none else some 0⟩
    ∃ s, mvcMaps c c lw = .ok s ∧ (mvcTerms s none).2.1.nanmean = some (1 / 2) := by
  intro c lw
  refine ⟨⟨⟨1, 2, fun _ j => if j = 0 then some 0 else some 1⟩, ⟨1, 2, fun _ j => if j = 0 then some 0 else some 1⟩,
    ⟨1, 2, fun _ j => if j = 0 then some 0 else some 0⟩⟩, ?_, ?_⟩
  · unfold mvcMaps
    rw [if_neg (by simp [c, lw])]
    simp only [c, lw]
    congr 2 <;>
    · congr 1
      funext i j
      by_cases hj : j = 0 <;> simp [hj]
  · rw [nanmean_full 1 2 _ (fun _ j => if j = 0 then 0 else 1) (by norm_num) (by norm_num) rfl rfl]
    · unfold mapMean; norm_num [sum_range_succ]
    · intro i _ j _
      by_cases hj : j = 0 <;> simp [mvcTerms, winAt, hj, sqO, mulO, addO]

/-- Non-vacuity: a 3×4 map with varying velocity. -/
example : (0 < 3 ∧ 0 < 4) ∧ (fullMap 3 4 (fun i j => (i : ℝ) - j)).get 2 1 = some 1 := by
  refine ⟨⟨by norm_num, by norm_num⟩, ?_⟩
  norm_num [fullMap]

end TS
