import Verif.Model.FieldAnalysis
import Verif.Props.C02
import Verif.Props.C03
import Verif.Props.C05
import Verif.Props.C53
import Verif.Props.C69
import Verif.Props.C80
import Mathlib.Tactic.IntervalCases

/-! C108 — the power-spectrum fits of a generated power-law field give back what was asked for. -/

namespace TS
open Finset

namespace Spec

/-- `img` is a field generated with these parameters: some draw of the phases gives it. -/
def GeneratedField (n : ℕ) (powerlaw theta ellip : ℝ) (img : Arr2 ℝ) : Prop :=
  ∃ angles, makeExtended n powerlaw theta ellip false true angles = .ok (.image img)

/-- Not every pixel is 0. -/
def NotBlank (img : Arr2 ℝ) : Prop := ∃ i < img.n, ∃ j < img.m, img.get i j ≠ 0

/-- The frequency of pixel `(i, j)` of the public `ps2D` is above `lo` and at most `hi`. -/
def FittedPixel (n : ℕ) (lo hi : ℝ) (i j : ℕ) : Prop :=
  i < n ∧ j < n ∧ lo < modeFreq n n (rowFreq n i) (colFreq n j) ∧ modeFreq n n (rowFreq n i) (colFreq n j) ≤ hi

/-- An axis ratio the model class can represent (the logarithm of `q / (1 - q)` is at most 50). -/
def RatioInBounds (q : ℝ) : Prop := 0 < q ∧ q < 1 ∧ |Real.log (q / (1 - q))| ≤ 50

end Spec
open Spec

/-! ### The spectrum of a generated field -/

private theorem ellRadius_modPi (t q y x : ℝ) : ellRadius (modPi t) q y x = ellRadius t q y x := by
  unfold ellRadius modPi
  rw [mul_comm Real.pi, Real.cos_sub_int_mul_pi, Real.sin_sub_int_mul_pi]
  have h : ((-1 : ℝ) ^ ⌊t / Real.pi⌋) ^ 2 = 1 := by
    rcases Int.even_or_odd ⌊t / Real.pi⌋ with h | h
    · rw [h.neg_one_zpow]; norm_num
    · rw [h.neg_one_zpow]; norm_num
  congr 1
  linear_combination ((q * (x * Real.cos t - y * Real.sin t)) ^ 2 + (x * Real.sin t + y * Real.cos t) ^ 2) * h

private theorem ellRadius_pos {t q y x : ℝ} (hq : 0 < q) (h : x ≠ 0 ∨ y ≠ 0) : 0 < ellRadius t q y x := by
  unfold ellRadius
  apply Real.sqrt_pos.2
  by_contra hc
  have h1 : (q * (x * Real.cos t - y * Real.sin t)) ^ 2 = 0 := by
    apply le_antisymm _ (sq_nonneg _)
    nlinarith [sq_nonneg (x * Real.sin t + y * Real.cos t)]
  have h2 : (x * Real.sin t + y * Real.cos t) ^ 2 = 0 := by
    apply le_antisymm _ (sq_nonneg _)
    nlinarith [sq_nonneg (q * (x * Real.cos t - y * Real.sin t))]
  have h1' := (mul_eq_zero.1 (pow_eq_zero_iff two_ne_zero |>.1 h1)).resolve_left hq.ne'
  have h2' := pow_eq_zero_iff two_ne_zero |>.1 h2
  have hs := Real.sin_sq_add_cos_sq t
  rcases h with h | h
  · apply h; linear_combination Real.cos t * h1' + Real.sin t * h2' - x * hs
  · apply h; linear_combination -Real.sin t * h1' + Real.cos t * h2' - y * hs

private theorem requested_sq {p r : ℝ} (hr : 0 < r) : requested p r ^ 2 = r ^ (-p) := by
  unfold requested
  rw [if_neg hr.ne', ← Real.rpow_natCast, ← Real.rpow_mul hr.le]
  congr 1; push_cast; ring

/-- **C108 (spectrum).** The power of a generated image of even size is `A r^(-powerlaw)`, `r` the radius of
the requested ellipse, at every frequency below the Nyquist frequency, with one amplitude `A ≥ 1` set by the
draw. -/
theorem C108_spectrum (n : ℕ) (hn : 0 < n) (hev : n % 2 = 0) (powerlaw theta ellip : ℝ) (h0 : 0 < ellip) (h1 : ellip ≤ 1)
    (img : Arr2 ℝ) (hg : GeneratedField n powerlaw theta ellip img) (hb : NotBlank img) :
    img.n = n ∧ img.m = n ∧ ∃ A : ℝ, 1 ≤ A ∧ ∀ k l : ℤ, 2 * |k| < n → 2 * |l| < n → ¬ (k = 0 ∧ l = 0) →
      power2 img k l = A * ellRadius theta ellip ((k : ℝ) / n) ((l : ℝ) / n) ^ (-powerlaw) := by
  obtain ⟨angles, hang⟩ := hg
  obtain ⟨c, hc, hall⟩ := C53_image_amplitude_partial n hn hev angles
  obtain ⟨a, ha, han, ham, hz, hv⟩ := hall powerlaw theta ellip h0 h1
  rw [hang] at ha; cases ha
  have hc1 : 1 ≤ c := by
    rcases hc with h | h
    · obtain ⟨i, hi, j, hj, hne⟩ := hb
      exact absurd (hz h i (by omega) j (by omega)) hne
    · exact h
  refine ⟨han, ham, c ^ 2, by nlinarith, ?_⟩
  intro k l hk hl hkl
  have hn0 : (n : ℝ) ≠ 0 := by exact_mod_cast hn.ne'
  have hk1 := abs_lt.1 (show |k| < ((n / 2 : ℕ) : ℤ) by omega)
  have hl1 := abs_lt.1 (show |l| < ((n / 2 : ℕ) : ℤ) by omega)
  unfold power2
  rw [han, ham, hv k l hk1.1 hk1.2 hl1.1 hl1.2, mul_pow, requested_sq]
  apply ellRadius_pos h0
  by_contra hcon
  push Not at hcon
  apply hkl
  have e1 := (div_eq_zero_iff.1 hcon.1).resolve_right hn0
  have e2 := (div_eq_zero_iff.1 hcon.2).resolve_right hn0
  exact ⟨by exact_mod_cast e2, by exact_mod_cast e1⟩

/-! ### The fits, for any spectrum of that form -/

/-- The map `ps` (with the zero frequency in the middle) has the elliptical power law below the Nyquist frequency. -/
private def LawMap (n : ℕ) (A powerlaw theta ellip : ℝ) (ps : Arr2 ℝ) : Prop :=
  ps.n = n ∧ ps.m = n ∧ ∀ i < n, ∀ j < n, 2 * |rowFreq n i| < n → 2 * |colFreq n j| < n →
    ¬ (rowFreq n i = 0 ∧ colFreq n j = 0) →
    ((ps2DProperty ps).map some).get i j = some (A * ellRadius theta ellip ((rowFreq n i : ℝ) / n) ((colFreq n j : ℝ) / n) ^ (-powerlaw))

private theorem ps2D_n {ps : Arr2 ℝ} {n : ℕ} (hn : 0 < n) (h : ps.n = n) (h' : ps.m = n) :
    ((ps2DProperty ps).map some).n = n ∧ ((ps2DProperty ps).map some).m = n := by
  obtain ⟨a, b, -⟩ := C02_ps2D_property ps 0 0 (by omega)
  exact ⟨by simp only [Arr2.map]; rw [a, h], by simp only [Arr2.map]; rw [b, h']⟩

/-- A frequency below 1/2 is below the Nyquist frequency of both axes. -/
private theorem below_half {n : ℕ} (hn : 0 < n) {k l : ℤ} (h : modeFreq n n k l < 1 / 2) : 2 * |k| < n ∧ 2 * |l| < n := by
  have hn0 : (0 : ℝ) < n := by exact_mod_cast hn
  have hsq : ((k : ℝ) / n) ^ 2 + ((l : ℝ) / n) ^ 2 < (1 / 2) ^ 2 := by
    unfold modeFreq at h
    exact (Real.sqrt_lt' (by norm_num)).1 h
  have aux : ∀ z w : ℤ, ((z : ℝ) / n) ^ 2 + ((w : ℝ) / n) ^ 2 < (1 / 2) ^ 2 → 2 * |z| < n := by
    intro z w hz
    have h1 : ((z : ℝ) / n) ^ 2 < (1 / 2) ^ 2 := by nlinarith [sq_nonneg ((w : ℝ) / n)]
    have h2 := abs_lt_of_sq_lt_sq h1 (by norm_num)
    rw [abs_div, abs_of_pos hn0, div_lt_iff₀ hn0] at h2
    have h3 : (2 : ℝ) * |(z : ℝ)| < n := by linarith
    exact_mod_cast h3
  exact ⟨aux k l hsq, aux l k (by linarith)⟩

private theorem used_iff {n : ℕ} {lo hi : ℝ} {azim : Option (Arr2 Bool)} {i j : ℕ} :
    Used n n lo hi azim false i j ↔ FittedPixel n lo hi i j := by
  unfold Used FittedPixel modeFreq
  simp

private theorem ellipOf_logit {q : ℝ} (h0 : 0 < q) (h1 : q < 1) : ellipOf (some (Real.log (q / (1 - q)))) = q := by
  unfold ellipOf
  simp only
  rw [Real.exp_neg, Real.exp_log (div_pos h0 (by linarith))]
  have : (1 - q) ≠ 0 := by linarith
  field_simp
  ring

private theorem surface_eq {A q t p x y : ℝ} (hA : 0 < A) (hR : 0 < ellRadius t q y x) :
    (10 : ℝ) ^ ellipSurface (log10 A) q t (-p) x y = A * ellRadius t q y x ^ (-p) := by
  have e : Real.sqrt (q ^ 2 * (x * Real.cos t - y * Real.sin t) ^ 2 + (x * Real.sin t + y * Real.cos t) ^ 2) =
      ellRadius t q y x := by
    unfold ellRadius
    rw [mul_pow]
  unfold ellipSurface
  rw [e, ← log10_rpow hA hR]
  exact Real.rpow_logb (by norm_num) (by norm_num) (mul_pos hA (Real.rpow_pos_of_pos hR _))

private theorem low_default (n : ℕ) (low : Option ℝ) : lowCutFor low n n = low.getD (2 / n) := by
  cases low with
  | some l => rfl
  | none => unfold lowCutFor; simp; field_simp; norm_num

/-- What the profile looks like: edges from `1/n` to `1/2`, centres in the middle. -/
private theorem profile_edges {n : ℕ} (hn : 4 ≤ n) {psd : Arr2 (Option ℝ)} (h1 : psd.n = n) (h2 : psd.m = n)
    {a : PspecArgs} (hnb : a.nbins ≠ some 0) (hbs : 0 < a.binsize) (hf : a.returnFreqs = true)
    (hmax : a.maxBin = none) (hmin : a.minBin = none) {out : PspecOut}
    (h : pspecFn psd { a with returnStddev := true } = .ok out) :
    StrictEdges out.edges ∧ 2 ≤ out.edges.n ∧ out.edges.get 0 = 1 / n ∧ out.edges.get (out.edges.n - 1) = 1 / 2 ∧
      out.binCents.n = out.edges.n - 1 ∧ ∀ k, out.binCents.get k = (out.edges.get k + out.edges.get (k + 1)) / 2 := by
  have hn0 : (0 : ℝ) < n := by exact_mod_cast (by omega : 0 < n)
  have hlow : lowBin a.returnFreqs a.minBin psd.n psd.m = 1 / n := by
    rw [h1, h2, hf, hmin]; simp [lowBin]
  have hhigh : ∀ b, IsHighBin a.returnFreqs a.maxBin psd.n psd.m b → b = 1 / 2 := by
    intro b hb; rw [hf, hmax] at hb; simpa [IsHighBin] using hb
  obtain ⟨e1, e2, e3, e4, -, -, e6, e7⟩ := C05_edges psd { a with returnStddev := true } out (by omega) (by omega)
    (by rw [h1, h2]; simp; omega) h hnb hbs (by simp only; rw [hlow]; positivity) (by
      intro b hb
      simp only at hb ⊢
      rw [hlow, hhigh b hb, div_lt_div_iff₀ hn0 (by norm_num)]
      have : (4 : ℝ) ≤ n := by exact_mod_cast hn
      linarith)
  simp only at e3 e4
  exact ⟨e1, e2, by rw [e3, hlow], hhigh _ e4, e6, e7⟩

/-- The largest bin centre is below 1/2 and at least the middle of the binned range. -/
private theorem fmax_bounds {n : ℕ} (hn : 4 ≤ n) {psd : Arr2 (Option ℝ)} (h1 : psd.n = n) (h2 : psd.m = n)
    {a : PspecArgs} (hnb : a.nbins ≠ some 0) (hbs : 0 < a.binsize) (hf : a.returnFreqs = true)
    (hmax : a.maxBin = none) (hmin : a.minBin = none) {out : PspecOut}
    (h : pspecFn psd { a with returnStddev := true } = .ok out) {fmax : ℝ}
    (hm : npMax (((List.range out.binCents.n).map (fun k : ℕ => (⟨out.binCents.get k, out.ps1D.get k, none⟩ : PsBin))).map (·.freq)) = .ok fmax) :
    (1 / 2 + 1 / n) / 2 ≤ fmax ∧ fmax < 1 / 2 := by
  obtain ⟨e1, e2, e3, e4, e5, e6⟩ := profile_edges hn h1 h2 hnb hbs hf hmax hmin h
  obtain ⟨hmem, hle⟩ := npMax_spec hm
  have mono : ∀ i j, i ≤ j → j < out.edges.n → out.edges.get i ≤ out.edges.get j := by
    intro i j hij hj
    rcases hij.lt_or_eq with h | h
    · exact (e1 i j h hj).le
    · rw [h]
  constructor
  · have := hle (out.binCents.get (out.edges.n - 2)) (by
      rw [List.map_map, List.mem_map]
      exact ⟨out.edges.n - 2, List.mem_range.2 (by omega), rfl⟩)
    rw [e6, show out.edges.n - 2 + 1 = out.edges.n - 1 by omega, e4] at this
    have h0 := mono 0 (out.edges.n - 2) (by omega) (by omega)
    rw [e3] at h0
    linarith
  · rw [List.map_map, List.mem_map] at hmem
    obtain ⟨k, hk, rfl⟩ := hmem
    have hk' := List.mem_range.1 hk
    rw [e5] at hk'
    simp only [Function.comp]
    rw [e6]
    have a1 := e1 k (k + 1) (by omega) (by omega)
    have a2 := mono (k + 1) (out.edges.n - 1) (by omega) (by omega)
    rw [e4] at a2
    linarith

/-- The parts of a run that returned. -/
private theorem run_parts {lsq : List (ℝ × ℝ × ℝ) → ℝ × ℝ} {lm : LevMar} {perms : ℕ → ℕ → ℕ} {o : EllipOpts}
    {a : PspecArgs} {low high : Option ℝ} {ps : Arr2 ℝ} {r : SpecRun}
    (h : runSpectrum lsq lm perms o a low high ps = .ok r) :
    ∃ q fmax, pspecFn ((ps2DProperty ps).map some) { a with returnStddev := true } = .ok r.profile ∧
      r.fit1D = some q ∧
      npMax (((List.range r.profile.binCents.n).map (fun k : ℕ => (⟨r.profile.binCents.get k, r.profile.ps1D.get k, none⟩ : PsBin))).map (·.freq)) = .ok fmax ∧
      fit2Dpspec lm perms o ⟨q.1, some 0, Real.pi / 2, q.2⟩ low high fmax r.profile.azim false ((ps2DProperty ps).map some) = .ok r.fit2D := by
  unfold runSpectrum at h
  simp only [bind, Except.bind, pure, Except.pure] at h
  split at h
  · cases h
  · rename_i out hout
    split at h
    · cases h
    · rename_i fit hfit
      cases fit with
      | none => simp [startFrom1D] at h
      | some q =>
        simp only [startFrom1D] at h
        split at h
        · cases h
        · rename_i fmax hfmax
          split at h
          · cases h
          · rename_i f2 hf2
            cases h
            exact ⟨q, fmax, hout, rfl, hfmax, hf2⟩

private theorem run_recovers {lsq : List (ℝ × ℝ × ℝ) → ℝ × ℝ} {lm : LevMar} {perms : ℕ → ℕ → ℕ} {o : EllipOpts}
    (ho : o.fix = false) (hc : ∀ amp slope, Converges lm false ⟨amp, some 0, Real.pi / 2, slope⟩)
    {a : PspecArgs} (hnb : a.nbins ≠ some 0) (hbs : 0 < a.binsize) (hf : a.returnFreqs = true)
    (hmax : a.maxBin = none) (hmin : a.minBin = none) {low high : Option ℝ} (hlow : ∀ l, low = some l → 0 ≤ l)
    (hhigh : ∀ h, high = some h → h < 1 / 2)
    {n : ℕ} (hn : 16 ≤ n)
    (hdet : Determining (fun x y => ∃ i j, FittedPixel n (low.getD (2 / n)) (high.getD (4.25 / n)) i j ∧
      x = (colFreq n j : ℝ) / n ∧ y = (rowFreq n i : ℝ) / n))
    {A p t q : ℝ} (hA : 1 ≤ A) (hp : |p| ≤ 20) (hp0 : p ≠ 0) (hq : RatioInBounds q) {ps : Arr2 ℝ}
    (hlaw : LawMap n A p t q ps) {r : SpecRun} (h : runSpectrum lsq lm perms o a low high ps = .ok r) :
    r.fit2D.slope = -p ∧ r.fit2D.ellip = q ∧ 0 ≤ r.fit2D.theta ∧ r.fit2D.theta < Real.pi ∧
      ∃ z : ℤ, r.fit2D.theta = t + z * Real.pi := by
  obtain ⟨hpn, hpm, hval⟩ := hlaw
  obtain ⟨w, fmax, hprof, -, hfm, hfit⟩ := run_parts h
  obtain ⟨s1, s2⟩ := ps2D_n (by omega) hpn hpm
  obtain ⟨fl, fu⟩ := fmax_bounds (by omega) s1 s2 hnb hbs hf hmax hmin hprof hfm
  have hn0 : (0 : ℝ) < n := by exact_mod_cast (by omega : 0 < n)
  have hl0 : 0 ≤ lowCutFor low n n := by
    rw [low_default]
    cases low with
    | none => simp only [Option.getD_none]; positivity
    | some l => exact hlow l rfl
  have hhi : high.getD fmax < 1 / 2 := by
    cases high with
    | none => exact fu
    | some b => exact hhigh b rfl
  have hle : high.getD (4.25 / n) ≤ high.getD fmax := by
    cases high with
    | some b => exact le_refl _
    | none =>
      simp only [Option.getD_none]
      refine le_trans ?_ fl
      have h16 : (16 : ℝ) ≤ n := by exact_mod_cast hn
      rw [div_le_iff₀ hn0]
      have : (1 / 2 + 1 / (n : ℝ)) / 2 * n = n / 4 + 1 / 2 := by field_simp; ring
      rw [this]; linarith
  have hinner : ∀ i j, FittedPixel n (lowCutFor low n n) (high.getD fmax) i j →
      2 * |rowFreq n i| < n ∧ 2 * |colFreq n j| < n ∧ ¬ (rowFreq n i = 0 ∧ colFreq n j = 0) := by
    intro i j hu
    obtain ⟨b1, b2⟩ := below_half (by omega) (lt_of_le_of_lt hu.2.2.2 hhi)
    refine ⟨b1, b2, ?_⟩
    rintro ⟨z1, z2⟩
    have := hu.2.2.1
    rw [z1, z2] at this
    simp [modeFreq] at this
    linarith
  have hR : ∀ i j, FittedPixel n (lowCutFor low n n) (high.getD fmax) i j →
      0 < ellRadius (modPi t) q ((rowFreq n i : ℝ) / n) ((colFreq n j : ℝ) / n) := by
    intro i j hu
    apply ellRadius_pos hq.1
    obtain ⟨-, -, hne⟩ := hinner i j hu
    by_contra hcon
    push Not at hcon
    have e1 := (div_eq_zero_iff.1 hcon.1).resolve_right hn0.ne'
    have e2 := (div_eq_zero_iff.1 hcon.2).resolve_right hn0.ne'
    exact hne ⟨by exact_mod_cast e2, by exact_mod_cast e1⟩
  have hpi := C14_reported_theta 0 0 0 0 t none
  obtain ⟨g1, g2, g3⟩ := C80_recovers_partial lm perms o ho _ (Or.inl (hc _ _)) low high fmax r.profile.azim false _ _ hfit
    (by rw [s1, s2]; exact hl0) ⟨log10 A, some (Real.log (q / (1 - q))), modPi t, -p⟩
    ⟨by
      have : 0 ≤ log10 A := Real.logb_nonneg (by norm_num) hA
      simp only; linarith, by intro t' ht'; cases ht'; exact hq.2.2,
      by simp only; rw [abs_of_nonneg hpi.1]; exact hpi.2.1.le, by simp only; rw [abs_neg]; exact hp⟩
    (by simpa using hp0) (by
      intro i j hu
      rw [s1, s2] at hu ⊢
      rw [used_iff] at hu
      obtain ⟨i1, i2, i3⟩ := hinner i j hu
      rw [hval i hu.1 j hu.2.1 i1 i2 i3]
      simp only
      rw [ellipOf_logit hq.1 hq.2.1, surface_eq (by linarith) (hR i j hu), ellRadius_modPi])
    (by
      rw [s1, s2]
      obtain ⟨x1, x2, x3, x4, x5, z1, z2, z3, z4, z5, z6, m1, m2, m3, m4⟩ := hdet
      have key : ∀ x y, (∃ i j, FittedPixel n (low.getD (2 / n)) (high.getD (4.25 / n)) i j ∧
          x = (colFreq n j : ℝ) / n ∧ y = (rowFreq n i : ℝ) / n) →
          ∃ i j, Used n n (lowCutFor low n n) (high.getD fmax) r.profile.azim false i j ∧
            x = (colFreq n j : ℝ) / n ∧ y = (rowFreq n i : ℝ) / n := by
        rintro x y ⟨i, j, hu, hx, hy⟩
        refine ⟨i, j, used_iff.2 ⟨hu.1, hu.2.1, ?_, hu.2.2.2.trans hle⟩, hx, hy⟩
        rw [low_default]; exact hu.2.2.1
      exact ⟨x1, x2, x3, x4, x5, z1, z2, z3, z4, z5, z6, key _ _ m1, key _ _ m2, key _ _ m3, key _ _ m4⟩)
  simp only at g1 g2 g3
  rw [ellipOf_logit hq.1 hq.2.1] at g2 g3
  have g3' := g3 hq.2.1
  have hpi' := C14_reported_theta 0 0 0 0 (modPi t) none
  refine ⟨g1, g2, by rw [g3']; exact hpi'.1, by rw [g3']; exact hpi'.2.1, ?_⟩
  refine ⟨-⌊modPi t / Real.pi⌋ - ⌊t / Real.pi⌋, ?_⟩
  rw [g3']
  conv_lhs => rw [modPi]
  conv_lhs => arg 1; rw [modPi]
  push_cast; ring

/-- The spectrum of an image that has the law. -/
private theorem image_map {n : ℕ} (hn : 0 < n) {img : Arr2 ℝ} (h1 : img.n = n) (h2 : img.m = n) :
    ∃ st ps, powerSpectrumInit (img.map some) none = .ok st ∧ computePspec st.weighted none = .ok ps ∧
      ps.n = n ∧ ps.m = n ∧
      ∀ i < n, ∀ j < n, ((ps2DProperty ps).map some).get i j = some (power2 img (rowFreq n i) (colFreq n j)) := by
  obtain ⟨⟨st, hst, sn, sm, sg⟩, -⟩ := C02_weighted_image (img.map some) (img.map some) ⟨rfl, rfl⟩
  simp only [Arr2.map] at sn sm sg
  obtain ⟨ps, hps, pn, pm, pg⟩ := C02_compute_pspec st.weighted (by omega) (by omega)
  have hsame : st.weighted.Same img := ⟨sn, sm, fun i hi j hj => by rw [sg i (by omega) j (by omega)]; rfl⟩
  refine ⟨st, ps, hst, hps, by omega, by omega, ?_⟩
  intro i hi j hj
  obtain ⟨-, -, e⟩ := C02_ps2D_property ps i j (by omega)
  simp only [Arr2.map]
  rw [e, pg _ (by omega) j (by omega), power2_congr hsame]
  congr 2
  · simp only [rowFreq]; omega
  · simp only [colFreq]; omega

private theorem image_law {n : ℕ} (hn : 0 < n) {A p t q : ℝ} {img : Arr2 ℝ} (h1 : img.n = n) (h2 : img.m = n)
    (hlaw : ∀ k l : ℤ, 2 * |k| < n → 2 * |l| < n → ¬ (k = 0 ∧ l = 0) →
      power2 img k l = A * ellRadius t q ((k : ℝ) / n) ((l : ℝ) / n) ^ (-p)) :
    ∃ st ps, powerSpectrumInit (img.map some) none = .ok st ∧ computePspec st.weighted none = .ok ps ∧
      ps.n = n ∧ ps.m = n ∧
      (∀ i < n, ∀ j < n, ((ps2DProperty ps).map some).get i j = some (power2 img (rowFreq n i) (colFreq n j))) ∧
      LawMap n A p t q ps := by
  obtain ⟨st, ps, e1, e2, pn, pm, hget⟩ := image_map hn h1 h2
  exact ⟨st, ps, e1, e2, pn, pm, hget, pn, pm, fun i hi j hj b1 b2 b3 => by rw [hget i hi j hj, hlaw _ _ b1 b2 b3]⟩

private theorem default_det {n : ℕ} (hn : 16 ≤ n) :
    Determining (fun x y => ∃ i j, FittedPixel n ((none : Option ℝ).getD (2 / n)) ((none : Option ℝ).getD (4.25 / n)) i j ∧
      x = (colFreq n j : ℝ) / n ∧ y = (rowFreq n i : ℝ) / n) := by
  have := C80_default_limits n (by omega) (4.25 / n) (le_refl _)
  simpa only [used_iff, low_default] using this

/-! ### Generated images and cubes -/

/-- **C108 (image).** `PowerSpectrum(img).run(fit_2D=True)` on an image generated with index `powerlaw`, axis
ratio `ellip` and angle `theta`, whatever the drawn phases and the options of the radial profile (number of
bins, spacing, wedge), with the default limits: the 2D fit returns index `-powerlaw`, the axis ratio and the angle
modulo π.  The fitter is assumed to reproduce exact data from its starting point. -/
theorem C108_image (lsq : List (ℝ × ℝ × ℝ) → ℝ × ℝ) (lm : LevMar) (perms : ℕ → ℕ → ℕ) (o : EllipOpts)
    (ho : o.fix = false) (hc : ∀ amp slope, Converges lm false ⟨amp, some 0, Real.pi / 2, slope⟩)
    (a : PspecArgs) (hnb : a.nbins ≠ some 0) (hbs : 0 < a.binsize) (hf : a.returnFreqs = true)
    (hmax : a.maxBin = none) (hmin : a.minBin = none)
    (n : ℕ) (hn : 16 ≤ n) (hev : n % 2 = 0) (powerlaw theta ellip : ℝ) (hp : |powerlaw| ≤ 20) (hp0 : powerlaw ≠ 0)
    (hq : RatioInBounds ellip) (img : Arr2 ℝ) (hg : GeneratedField n powerlaw theta ellip img) (hb : NotBlank img)
    (r : SpecRun) (h : powerSpectrum2D lsq lm perms o a none none (img.map some) = .ok r) :
    r.fit2D.slope = -powerlaw ∧ r.fit2D.ellip = ellip ∧ 0 ≤ r.fit2D.theta ∧ r.fit2D.theta < Real.pi ∧
      ∃ z : ℤ, r.fit2D.theta = theta + z * Real.pi := by
  obtain ⟨h1, h2, A, hA, hlaw⟩ := C108_spectrum n (by omega) hev powerlaw theta ellip hq.1 hq.2.1.le img hg hb
  obtain ⟨st, ps, e1, e2, -, -, -, e3⟩ := image_law (by omega) h1 h2 hlaw
  have h' : runSpectrum lsq lm perms o a none none ps = .ok r := by
    simpa only [powerSpectrum2D, e1, e2, bind, Except.bind] using h
  exact run_recovers ho hc hnb hbs hf hmax hmin (by simp) (by simp) hn (default_det hn) hA hp hp0 hq e3 h'

/-- **C108 (limits).** The same with limits of the user's choice, as long as the upper one is below the Nyquist
frequency 1/2 and the fitted frequencies determine an ellipse. -/
theorem C108_limits (lsq : List (ℝ × ℝ × ℝ) → ℝ × ℝ) (lm : LevMar) (perms : ℕ → ℕ → ℕ) (o : EllipOpts)
    (ho : o.fix = false) (hc : ∀ amp slope, Converges lm false ⟨amp, some 0, Real.pi / 2, slope⟩)
    (a : PspecArgs) (hnb : a.nbins ≠ some 0) (hbs : 0 < a.binsize) (hf : a.returnFreqs = true)
    (hmax : a.maxBin = none) (hmin : a.minBin = none) (lo hi : ℝ) (hlo : 0 ≤ lo) (hhi : hi < 1 / 2)
    (n : ℕ) (hn : 16 ≤ n) (hev : n % 2 = 0)
    (hdet : Determining (fun x y => ∃ i j, FittedPixel n lo hi i j ∧ x = (colFreq n j : ℝ) / n ∧ y = (rowFreq n i : ℝ) / n))
    (powerlaw theta ellip : ℝ) (hp : |powerlaw| ≤ 20) (hp0 : powerlaw ≠ 0)
    (hq : RatioInBounds ellip) (img : Arr2 ℝ) (hg : GeneratedField n powerlaw theta ellip img) (hb : NotBlank img)
    (r : SpecRun) (h : powerSpectrum2D lsq lm perms o a (some lo) (some hi) (img.map some) = .ok r) :
    r.fit2D.slope = -powerlaw ∧ r.fit2D.ellip = ellip ∧ 0 ≤ r.fit2D.theta ∧ r.fit2D.theta < Real.pi ∧
      ∃ z : ℤ, r.fit2D.theta = theta + z * Real.pi := by
  obtain ⟨h1, h2, A, hA, hlaw⟩ := C108_spectrum n (by omega) hev powerlaw theta ellip hq.1 hq.2.1.le img hg hb
  obtain ⟨st, ps, e1, e2, -, -, -, e3⟩ := image_law (by omega) h1 h2 hlaw
  have h' : runSpectrum lsq lm perms o a (some lo) (some hi) ps = .ok r := by
    simpa only [powerSpectrum2D, e1, e2, bind, Except.bind] using h
  exact run_recovers (low := some lo) (high := some hi) ho hc hnb hbs hf hmax hmin (by rintro l ⟨⟩; exact hlo) (by rintro l ⟨⟩; exact hhi) hn hdet hA hp hp0 hq e3 h'

/-- **C108 (cube).** `VCA(cube).run(fit_2D=True)` on a cube whose channels are all generated with the same index,
axis ratio and angle, each with its own draw, at least one of them not blank: the same result. -/
theorem C108_cube (lsq : List (ℝ × ℝ × ℝ) → ℝ × ℝ) (lm : LevMar) (perms : ℕ → ℕ → ℕ) (o : EllipOpts)
    (ho : o.fix = false) (hc : ∀ amp slope, Converges lm false ⟨amp, some 0, Real.pi / 2, slope⟩)
    (a : PspecArgs) (hnb : a.nbins ≠ some 0) (hbs : 0 < a.binsize) (hf : a.returnFreqs = true)
    (hmax : a.maxBin = none) (hmin : a.minBin = none)
    (n : ℕ) (hn : 16 ≤ n) (hev : n % 2 = 0) (powerlaw theta ellip : ℝ) (hp : |powerlaw| ≤ 20) (hp0 : powerlaw ≠ 0)
    (hq : RatioInBounds ellip) (cube : Arr3 ℝ)
    (hg : ∀ c < cube.n, GeneratedField n powerlaw theta ellip (channel cube c))
    (hb : ∃ c < cube.n, NotBlank (channel cube c))
    (r : SpecRun) (h : vca2D lsq lm perms o a none none (cube.map some) = .ok r) :
    r.fit2D.slope = -powerlaw ∧ r.fit2D.ellip = ellip ∧ 0 ≤ r.fit2D.theta ∧ r.fit2D.theta < Real.pi ∧
      ∃ z : ℤ, r.fit2D.theta = theta + z * Real.pi := by
  have hfill : fillNan3 0 (cube.map some) = cube := by
    unfold fillNan3 Arr3.map; simp
  obtain ⟨c0, hc0, hb0⟩ := hb
  obtain ⟨h1, h2, A0, hA0, hlaw0⟩ := C108_spectrum n (by omega) hev powerlaw theta ellip hq.1 hq.2.1.le _ (hg c0 hc0) hb0
  simp only [channel] at h1 h2
  have hex : ∀ c : ℕ, ∃ B : ℝ, 0 ≤ B ∧ (c < cube.n → ∀ k l : ℤ, 2 * |k| < n → 2 * |l| < n → ¬ (k = 0 ∧ l = 0) →
      power2 (channel cube c) k l = B * ellRadius theta ellip ((k : ℝ) / n) ((l : ℝ) / n) ^ (-powerlaw)) := by
    intro c
    by_cases hcn : c < cube.n
    · by_cases hblank : NotBlank (channel cube c)
      · obtain ⟨-, -, B, hB, hlaw⟩ := C108_spectrum n (by omega) hev powerlaw theta ellip hq.1 hq.2.1.le _ (hg c hcn) hblank
        exact ⟨B, by linarith, fun _ => hlaw⟩
      · refine ⟨0, le_refl _, fun _ k l _ _ _ => ?_⟩
        have hz : ∀ i < (channel cube c).n, ∀ j < (channel cube c).m, (channel cube c).get i j = 0 := by
          intro i hi j hj
          by_contra hne
          exact hblank ⟨i, hi, j, hj, hne⟩
        have hsame : (channel cube c).Same (scale2 0 (channel cube c)) :=
          ⟨rfl, rfl, fun i hi j hj => by rw [hz i hi j hj]; simp [scale2]⟩
        rw [power2_congr hsame, power2_scale]; simp
    · exact ⟨0, le_refl _, fun h => absurd h hcn⟩
  choose B hB0 hBl using hex
  obtain ⟨ps, hps, pn, pm, pg⟩ := C03_vca_channel_sum cube (by omega) (by omega) (by omega)
  have hBc : 1 ≤ B c0 := by
    have e1 := hlaw0 1 0 (by simp; omega) (by simp; omega) (by simp)
    have e2 := hBl c0 hc0 1 0 (by simp; omega) (by simp; omega) (by simp)
    rw [e1] at e2
    have hn0 : (n : ℝ) ≠ 0 := by exact_mod_cast (by omega : n ≠ 0)
    have hpos : 0 < ellRadius theta ellip (((1 : ℤ) : ℝ) / n) (((0 : ℤ) : ℝ) / n) ^ (-powerlaw) :=
      Real.rpow_pos_of_pos (ellRadius_pos hq.1 (Or.inr (by simp [hn0]))) _
    rw [← mul_right_cancel₀ hpos.ne' e2]; exact hA0
  have hA : 1 ≤ (cube.n : ℝ) * ∑ c ∈ range cube.n, B c := by
    have h1' : (1 : ℝ) ≤ cube.n := by exact_mod_cast (by omega : 1 ≤ cube.n)
    have h2' : B c0 ≤ ∑ c ∈ range cube.n, B c :=
      single_le_sum (f := B) (fun c _ => hB0 c) (mem_range.2 hc0)
    nlinarith
  have hlaw : LawMap n ((cube.n : ℝ) * ∑ c ∈ range cube.n, B c) powerlaw theta ellip ps := by
    refine ⟨by omega, by omega, ?_⟩
    intro i hi j hj b1 b2 b3
    obtain ⟨-, -, e⟩ := C02_ps2D_property ps i j (by omega)
    simp only [Arr2.map]
    rw [e, pg _ (by omega) j (by omega)]
    congr 1
    rw [mul_assoc, sum_mul]
    congr 1
    apply sum_congr rfl
    intro c hcm
    rw [← hBl c (mem_range.1 hcm) _ _ b1 b2 b3]
    congr 1
    · simp only [rowFreq]; omega
    · simp only [colFreq]; omega
  have h' : runSpectrum lsq lm perms o a none none ps = .ok r := by
    simpa only [vca2D, hfill, hps, bind, Except.bind] using h
  exact run_recovers ho hc hnb hbs hf hmax hmin (by simp) (by simp) hn (default_det hn) hA hp hp0 hq hlaw h'

/-! ### Isotropic fields -/

private theorem ellRadius_one (t y x : ℝ) : ellRadius t 1 y x = Real.sqrt (x ^ 2 + y ^ 2) := by
  unfold ellRadius
  congr 1
  have := Real.sin_sq_add_cos_sq t
  linear_combination (x ^ 2 + y ^ 2) * this

/-- **C108 (isotropic image, fixed ellipse).** With `fix_ellip_params=True` an isotropic field (axis ratio 1, which the
free fit cannot represent) gives index `-powerlaw` and axis ratio 1. -/
theorem C108_isotropic_fixed (lsq : List (ℝ × ℝ × ℝ) → ℝ × ℝ) (lm : LevMar) (perms : ℕ → ℕ → ℕ) (o : EllipOpts)
    (ho : o.fix = true) (hc : ∀ amp slope, Converges lm true ⟨amp, none, Real.pi / 2, slope⟩)
    (hfix : ∀ w s d, s.e = none → (lm true w s d).1.e = none)
    (a : PspecArgs) (hnb : a.nbins ≠ some 0) (hbs : 0 < a.binsize) (hf : a.returnFreqs = true)
    (hmax : a.maxBin = none) (hmin : a.minBin = none)
    (n : ℕ) (hn : 16 ≤ n) (hev : n % 2 = 0) (powerlaw theta : ℝ) (hp : |powerlaw| ≤ 20)
    (img : Arr2 ℝ) (hg : GeneratedField n powerlaw theta 1 img) (hb : NotBlank img)
    (r : SpecRun) (h : powerSpectrum2D lsq lm perms o a none none (img.map some) = .ok r) :
    r.fit2D.slope = -powerlaw ∧ r.fit2D.ellip = 1 := by
  obtain ⟨h1, h2, A, hA, hlaw⟩ := C108_spectrum n (by omega) hev powerlaw theta 1 one_pos (le_refl _) img hg hb
  obtain ⟨st, ps, e1, e2, hpn, hpm, -, -, -, hval⟩ := image_law (by omega) h1 h2 hlaw
  have h' : runSpectrum lsq lm perms o a none none ps = .ok r := by
    simpa only [powerSpectrum2D, e1, e2, bind, Except.bind] using h
  obtain ⟨w, fmax, hprof, -, hfm, hfit⟩ := run_parts h'
  obtain ⟨s1, s2⟩ := ps2D_n (by omega) hpn hpm
  obtain ⟨fl, fu⟩ := fmax_bounds (by omega) s1 s2 hnb hbs hf hmax hmin hprof hfm
  have hn0 : (0 : ℝ) < n := by exact_mod_cast (by omega : 0 < n)
  have hl0 : 0 ≤ lowCutFor none n n := by
    rw [low_default]; simp only [Option.getD_none]; positivity
  have h4 : 4.25 / n ≤ fmax := by
    refine le_trans ?_ fl
    have h16 : (16 : ℝ) ≤ n := by exact_mod_cast hn
    rw [div_le_iff₀ hn0]
    have : (1 / 2 + 1 / (n : ℝ)) / 2 * n = n / 4 + 1 / 2 := by field_simp; ring
    rw [this]; linarith
  obtain ⟨x1, x2, x3, x4, x5, z1, z2, z3, z4, z5, z6, ⟨i, j, u1, a1, b1⟩, ⟨i', j', u2, a2, b2⟩, m3, m4⟩ :=
    C80_default_limits n (by omega) fmax h4
  have hu : ∀ i j, Used n n (lowCutFor none n n) ((none : Option ℝ).getD fmax) r.profile.azim false i j ↔
      Used n n (lowCutFor none n n) ((none : Option ℝ).getD fmax) none false i j := by
    intro i j; rw [used_iff, used_iff]
  exact C80_fixed_map lm perms o ho ⟨w.1, some 0, Real.pi / 2, w.2⟩ (hc _ _) hfix none none fmax r.profile.azim false
    ((ps2DProperty ps).map some) r.fit2D hfit
    (by rw [s1, s2]; exact hl0) ⟨log10 A, none, 0, -powerlaw⟩
    ⟨by
      have : 0 ≤ log10 A := Real.logb_nonneg (by norm_num) hA
      simp only; linarith, by simp, by simp [Real.pi_pos.le], by simp only; rw [abs_neg]; exact hp⟩ rfl
    (by
      intro i j hu'
      rw [s1, s2] at hu' ⊢
      rw [used_iff] at hu'
      obtain ⟨v1, v2⟩ := below_half (by omega) (lt_of_le_of_lt hu'.2.2.2 fu)
      have v3 : ¬ (rowFreq n i = 0 ∧ colFreq n j = 0) := by
        rintro ⟨z1, z2⟩
        have := hu'.2.2.1
        rw [z1, z2] at this
        simp [modeFreq] at this
        linarith
      rw [hval i hu'.1 j hu'.2.1 v1 v2 v3, ellRadius_one]
      have hpos : 0 < Real.sqrt (((colFreq n j : ℝ) / n) ^ 2 + ((rowFreq n i : ℝ) / n) ^ 2) := by
        have := hu'.2.2.1
        unfold modeFreq at this
        rw [add_comm]
        linarith
      simp only
      rw [← log10_rpow (by linarith) hpos]
      congr 1
      exact (Real.rpow_logb (by norm_num) (by norm_num) (mul_pos (by linarith) (Real.rpow_pos_of_pos hpos _))).symm)
    i j i' j' (by rw [s1, s2, hu]; exact u1) (by rw [s1, s2, hu]; exact u2) (by
      rw [s1, s2, ← a1, ← a2, ← b1, ← b2]
      simpa only [ne_eq, OfNat.ofNat_ne_zero, not_false_eq_true, zero_pow, add_zero] using z3)

/-- **C108 (isotropic image, unbinned fit).** The 1D fit to the unbinned spectrum (`fit_unbinned=True`) of an isotropic
field gives the slope `-powerlaw` exactly when the upper limit is below the Nyquist frequency 1/2.  Missing: the default
upper limit (see `C108_unbinned_violated`). -/
theorem C108_unbinned_partial (lsq : List (ℝ × ℝ × ℝ) → ℝ × ℝ) (hl : LeastSquares lsq) (a : PspecArgs)
    (hwedge : a.theta0 = none) (n : ℕ) (hn : 8 < n) (hev : n % 2 = 0) (powerlaw theta hi : ℝ) (h4 : 4 / n ≤ hi) (hhi : hi < 1 / 2)
    (img : Arr2 ℝ) (hg : GeneratedField n powerlaw theta 1 img) (hb : NotBlank img) :
    ∃ A : ℝ, 1 ≤ A ∧ powerSpectrumRun lsq none a true none (some hi) img = .ok (some (log10 A, -powerlaw)) := by
  obtain ⟨h1, h2, A, hA, hlaw⟩ := C108_spectrum n (by omega) hev powerlaw theta 1 one_pos (le_refl _) img hg hb
  obtain ⟨ps, hps, -⟩ := C02_compute_pspec img (by omega) (by omega)
  have hn0 : (0 : ℝ) < n := by exact_mod_cast (by omega : 0 < n)
  refine ⟨A, hA, ?_⟩
  obtain ⟨p1, p2, -⟩ := C02_ps2D_property ps 0 0 (by
    obtain ⟨q, hq, e, -⟩ := C02_compute_pspec img (by omega) (by omega)
    rw [hps] at hq; cases hq; omega)
  have hsh : ps.n = n ∧ ps.m = n := by
    obtain ⟨q, hq, e, e', -⟩ := C02_compute_pspec img (by omega) (by omega)
    rw [hps] at hq; cases hq; omega
  obtain ⟨out, hout⟩ := (C05_defined_iff ((ps2DProperty ps).map some) { a with returnStddev := true }
    (by simp only [Arr2.map]; omega) (by simp only [Arr2.map]; omega)
    (by simp only [Arr2.map]; omega)).2 (by simp [hwedge])
  unfold powerSpectrumRun radialBins
  simp only [hps, hout, bind, Except.bind, pure, Except.pure, if_true]
  have hf3 : modeFreq n n 3 0 = 3 / n ∧ modeFreq n n 4 0 = 4 / n := by
    unfold modeFreq
    constructor
    · rw [show (((3 : ℤ) : ℝ) / n) ^ 2 + (((0 : ℤ) : ℝ) / n) ^ 2 = (3 / n) ^ 2 by push_cast; ring, Real.sqrt_sq (by positivity)]
    · rw [show (((4 : ℤ) : ℝ) / n) ^ 2 + (((0 : ℤ) : ℝ) / n) ^ 2 = (4 / n) ^ 2 by push_cast; ring, Real.sqrt_sq (by positivity)]
  have h34 : (3 : ℝ) / n < 4 / n := div_lt_div_of_pos_right (by norm_num) hn0
  have h23 : (2 : ℝ) / n < 3 / n := div_lt_div_of_pos_right (by norm_num) hn0
  apply C69_unbinned lsq hl none (some hi) img ps (by omega) (by omega) hps (2 / n) hi
    ⟨by rw [h1, h2]; simp, rfl⟩ (by positivity) A (-powerlaw) (by linarith)
  · intro k l _ hlow hup
    rw [h1, h2] at hlow hup ⊢
    obtain ⟨b1, b2⟩ := below_half (by omega) (lt_of_le_of_lt hup hhi)
    rw [hlaw k l b1 b2, ellRadius_one]
    · unfold modeFreq; rw [add_comm (((l : ℝ) / n) ^ 2)]
    · rintro ⟨rfl, rfl⟩
      simp [modeFreq] at hlow
      have : (0 : ℝ) < 2 / n := by positivity
      linarith
  · show IsMode img.n img.m 3 0
    unfold IsMode; rw [h1, h2]; omega
  · show IsMode img.n img.m 4 0
    unfold IsMode; rw [h1, h2]; omega
  · rw [h1, h2, hf3.1]; exact ⟨h23, by linarith⟩
  · rw [h1, h2, hf3.2]; exact ⟨by linarith, h4⟩
  · rw [h1, h2, hf3.1, hf3.2]; exact h34.ne

/-! ### The run returns -/

private theorem azim_none {psd : Arr2 (Option ℝ)} {a : PspecArgs} (ha : a.theta0 = none) {out : PspecOut}
    (h : pspecFn psd a = .ok out) : out.azim = none := by
  unfold pspecFn at h
  simp only [ha, pspecAzim, bind, Except.bind, pure, Except.pure] at h
  have hz : ∀ d e b, (pspecOutput psd d none e b).azim = none := by
    intro d e b; unfold pspecOutput; simp only; split <;> rfl
  cases hr : a.returnFreqs <;> simp only [hr, if_true, Bool.false_eq_true, if_false] at h <;>
    (repeat' split at h) <;> first | (cases h; exact hz _ _ _) | cases h

/-- **C108 (the run returns).** Without an azimuthal wedge and with the bootstrapped errors, `run(fit_2D=True)` with the
default limits returns on every square image of size 16 or more whose powers at non-zero frequencies are all positive. -/
theorem C108_returns (lsq : List (ℝ × ℝ × ℝ) → ℝ × ℝ) (lm : LevMar) (perms : ℕ → ℕ → ℕ) (o : EllipOpts)
    (hbo : o.bootstrap = true) (hme : o.method = "LevMarq")
    (a : PspecArgs) (hnb : a.nbins ≠ some 0) (hbs : 0 < a.binsize) (hf : a.returnFreqs = true)
    (hmax : a.maxBin = none) (hmin : a.minBin = none) (hwedge : a.theta0 = none)
    (n : ℕ) (hn : 16 ≤ n) (img : Arr2 ℝ) (h1 : img.n = n) (h2 : img.m = n)
    (hpos : ∀ k l : ℤ, IsMode n n k l → ¬ (k = 0 ∧ l = 0) → 0 < power2 img k l) :
    ∃ r, powerSpectrum2D lsq lm perms o a none none (img.map some) = .ok r := by
  obtain ⟨st, ps, e1, e2, hpn, hpm, hget⟩ := image_map (by omega) h1 h2
  obtain ⟨s1, s2⟩ := ps2D_n (by omega) hpn hpm
  have hn0 : (0 : ℝ) < n := by exact_mod_cast (by omega : 0 < n)
  have h16 : (16 : ℝ) ≤ n := by exact_mod_cast hn
  set P := (ps2DProperty ps).map some with hP
  obtain ⟨out, hout⟩ := (C05_defined_iff P { a with returnStddev := true }
    (by omega) (by omega) (by rw [s1, s2]; simp; omega)).2 (by simp [hwedge])
  have haz : out.azim = none := azim_none (by simpa using hwedge) hout
  obtain ⟨c1, c2, c3, c4, c5, c6⟩ := profile_edges (by omega) s1 s2 hnb hbs hf hmax hmin hout
  have mono : ∀ i j, i ≤ j → j < out.edges.n → out.edges.get i ≤ out.edges.get j := by
    intro i j hij hj
    rcases hij.lt_or_eq with h | h
    · exact (c1 i j h hj).le
    · rw [h]
  have hmode : ∀ i < n, ∀ j < n, IsMode n n (rowFreq n i) (colFreq n j) := by
    intro i hi j hj; unfold IsMode rowFreq colFreq; omega
  -- every bin mean is positive
  have hmean : ∀ k, k + 1 < out.edges.n → out.ps1D.get k = none ∨ ∃ v, 0 < v ∧ out.ps1D.get k = some v := by
    intro k hk
    obtain ⟨-, hps⟩ := C05_bin_means P { a with returnStddev := true } out (by omega) (by omega)
      (by rw [s1, s2]; simp; omega) hout c1 c2 k
    rw [hps]
    split
    · left; rfl
    · rename_i hcard
      push Not at hcard
      right
      refine ⟨_, ?_, rfl⟩
      unfold pixMean
      apply div_pos _ (by exact_mod_cast Nat.pos_of_ne_zero hcard.1)
      apply sum_pos
      · rintro ⟨i, j⟩ hp
        simp only [binPixels, mem_filter, mem_product, mem_range, s1, s2] at hp
        obtain ⟨⟨hi, hj⟩, -, -, hin⟩ := hp
        rw [hget i hi j hj]
        simp only [Option.getD_some]
        apply hpos _ _ (hmode i hi j hj)
        intro hz
        have hr := hin.2.1
        have h0 := mono 0 k (by omega) (by omega)
        rw [c3] at h0
        simp only [binRadius, hf, if_true, freqRadius, if_pos hz, max_self] at hr
        have : 1 / (2 * (n : ℝ)) < 1 / n := by
          apply one_div_lt_one_div_of_lt hn0; linarith
        linarith
      · exact card_pos.1 (Nat.pos_of_ne_zero hcard.1)
  -- the bin of the frequency 3/n has two pixels
  obtain ⟨k, hk⟩ := exists_inBin (e := out.edges) c2 (x := 3 / n)
    (by rw [c3]; exact div_le_div_of_nonneg_right (by norm_num) hn0.le)
    (by rw [c4, div_le_iff₀ hn0]; linarith)
  have hk1 : out.edges.get (k + 1) ≤ 1 / 2 := by
    rw [← c4]; exact mono _ _ (by have := hk.1; omega) (by omega)
  have hkpos : 2 / n < out.binCents.get k := by
    rw [c6]
    have h0 := mono 0 k (by omega) (by have := hk.1; omega)
    rw [c3] at h0
    have h3 : 3 / (n : ℝ) < out.edges.get (k + 1) := by
      rcases hk.2.2 with h | ⟨h, h'⟩
      · exact h
      · exfalso
        rw [show k + 1 = out.edges.n - 1 by omega, c4, div_eq_iff hn0.ne'] at h'
        linarith
    have : 2 / (n : ℝ) = (1 / n + 3 / n) / 2 := by ring
    rw [this]; linarith
  have hsome : out.ps1D.get k ≠ none := by
    obtain ⟨-, hps⟩ := C05_bin_means P { a with returnStddev := true } out (by omega) (by omega)
      (by rw [s1, s2]; simp; omega) hout c1 c2 k
    rw [hps, if_neg]
    · simp
    · have hr1 : rowFreq n (n - 1 - n / 2 - 3) = 3 := by unfold rowFreq; omega
      have hr0 : rowFreq n (n - 1 - n / 2) = 0 := by unfold rowFreq; omega
      have hc1 : colFreq n (n / 2 + 3) = 3 := by unfold colFreq; omega
      have hc0 : colFreq n (n / 2) = 0 := by unfold colFreq; omega
      have m1 : (n - 1 - n / 2 - 3, n / 2) ∈ binPixels P out.azim out.edges a.returnFreqs k := by
        simp only [binPixels, mem_filter, mem_product, mem_range, s1, s2]
        refine ⟨⟨by omega, by omega⟩, by rw [hget _ (by omega) _ (by omega)]; simp, by simp [haz], ?_⟩
        simp only [binRadius, hf, if_true, freqRadius, hr1, hc0]
        rw [if_neg (by norm_num), show (((3 : ℤ) : ℝ) / n) ^ 2 + (((0 : ℤ) : ℝ) / n) ^ 2 = (3 / n) ^ 2 by push_cast; ring,
          Real.sqrt_sq (by positivity)]
        exact hk
      have m2 : (n - 1 - n / 2, n / 2 + 3) ∈ binPixels P out.azim out.edges a.returnFreqs k := by
        simp only [binPixels, mem_filter, mem_product, mem_range, s1, s2]
        refine ⟨⟨by omega, by omega⟩, by rw [hget _ (by omega) _ (by omega)]; simp, by simp [haz], ?_⟩
        simp only [binRadius, hf, if_true, freqRadius, hr0, hc1]
        rw [if_neg (by norm_num), show (((0 : ℤ) : ℝ) / n) ^ 2 + (((3 : ℤ) : ℝ) / n) ^ 2 = (3 / n) ^ 2 by push_cast; ring,
          Real.sqrt_sq (by positivity)]
        exact hk
      have : 1 < (binPixels P out.azim out.edges a.returnFreqs k).card :=
        one_lt_card.2 ⟨_, m1, _, m2, by simp only [ne_eq, Prod.mk.injEq, not_and]; omega⟩
      rintro (h | ⟨-, h⟩) <;> simp only at h <;> omega
  set bins : List PsBin := (List.range out.binCents.n).map (fun k : ℕ => ⟨out.binCents.get k, out.ps1D.get k, none⟩) with hbins
  have hkmem : (⟨out.binCents.get k, out.ps1D.get k, none⟩ : PsBin) ∈ bins := by
    rw [hbins, List.mem_map]
    exact ⟨k, List.mem_range.2 (by rw [c5]; have := hk.1; omega), rfl⟩
  obtain ⟨fmax, hfm⟩ : ∃ fmax, npMax (bins.map (·.freq)) = .ok fmax := by
    cases hb : bins.map (·.freq) with
    | nil =>
      have := List.mem_map_of_mem (f := (·.freq)) hkmem
      rw [hb] at this; simp at this
    | cons x xs => exact ⟨_, rfl⟩
  obtain ⟨fl, fu⟩ := fmax_bounds (by omega) s1 s2 hnb hbs hf hmax hmin hout hfm
  have hkf : out.binCents.get k ≤ fmax :=
    (npMax_spec hfm).2 _ (List.mem_map_of_mem (f := (·.freq)) hkmem)
  have hlow : lowCutFor none n n = 2 / n := by rw [low_default]; rfl
  have hpt : ∀ b ∈ bins, 2 / n < b.freq → 0 < b.freq ∧ (b.power = none ∨ ∃ v, 0 < v ∧ b.power = some v) := by
    intro b hb hlt
    rw [hbins, List.mem_map] at hb
    obtain ⟨k', hk', rfl⟩ := hb
    have := List.mem_range.1 hk'
    refine ⟨lt_trans (by positivity) hlt, hmean k' (by omega)⟩
  obtain ⟨q, hq⟩ : ∃ q, fitPspecLine lsq false none none P.n P.m bins = .ok (some q) := by
    unfold fitPspecLine highCutFor
    simp only [hfm, bind, Except.bind]
    refine ⟨_, lineFit_finite lsq _ ?_ ?_⟩
    · intro p hp
      unfold psPoints at hp
      rw [List.mem_map] at hp
      obtain ⟨b, hb, rfl⟩ := hp
      rw [List.mem_filter] at hb
      have hb2 := hb.2
      simp only [clipFunc, s1, s2, hlow, Bool.and_eq_true, decide_eq_true_eq] at hb2
      obtain ⟨hb3, hb4⟩ := hpt b hb.1 hb2.1
      rcases hb4 with h | ⟨v, hv, h⟩
      · left; right; left; simp [h, log10F]
      · right
        exact ⟨log10 b.freq, log10 v, 1, by
          unfold FitPt.usable
          rw [h, log10F_pos hb3, log10F_pos hv]; simp [psWeight]⟩
    · refine ⟨_, List.mem_map.2 ⟨_, List.mem_filter.2 ⟨hkmem, ?_⟩, rfl⟩, ?_⟩
      · simp only [clipFunc, s1, s2, hlow, Bool.and_eq_true, decide_eq_true_eq]
        exact ⟨hkpos, hkf⟩
      · rcases hmean k hk.1 with h | ⟨v, hv, h⟩
        · exact absurd h hsome
        · unfold FitPt.missing
          simp only [h, log10F_pos hv, log10F_pos (lt_trans (by positivity) hkpos), psWeight]
          simp
  have h4 : 4.25 / n ≤ fmax := by
    refine le_trans ?_ fl
    rw [div_le_iff₀ hn0]
    have : (1 / 2 + 1 / (n : ℝ)) / 2 * n = n / 4 + 1 / 2 := by field_simp; ring
    rw [this]; linarith
  obtain ⟨f2, hf2⟩ := C80_returns lm perms o hbo hme ⟨q.1, some 0, Real.pi / 2, q.2⟩ none none fmax out.azim false P
    (by
      obtain ⟨x1, x2, x3, x4, x5, z1, z2, z3, z4, z5, z6, ⟨i, j, u1, -, -⟩, -⟩ := C80_default_limits n (by omega) fmax h4
      rw [s1, s2, haz]
      exact ⟨i, j, u1⟩)
    (by
      intro i j hu
      rw [s1, s2, haz, used_iff, hlow] at hu
      refine ⟨_, hpos _ _ (hmode i hu.1 j hu.2.1) ?_, hget i hu.1 j hu.2.1⟩
      rintro ⟨z1, z2⟩
      have := hu.2.2.1
      rw [z1, z2] at this
      simp [modeFreq] at this
      have : (0 : ℝ) < 2 / n := by positivity
      linarith)
  refine ⟨⟨out, some q, f2⟩, ?_⟩
  unfold powerSpectrum2D runSpectrum
  simp only [e1, e2, bind, Except.bind, pure, Except.pure, ← hP, hout, ← hbins, hq, startFrom1D, hfm, hf2]

/-! ### The radial profile -/

private theorem ellRadius_bounds {t q y x : ℝ} (h0 : 0 < q) (h1 : q ≤ 1) :
    q * Real.sqrt (y ^ 2 + x ^ 2) ≤ ellRadius t q y x ∧ ellRadius t q y x ≤ Real.sqrt (y ^ 2 + x ^ 2) := by
  have hs := Real.sin_sq_add_cos_sq t
  have key : (x * Real.cos t - y * Real.sin t) ^ 2 + (x * Real.sin t + y * Real.cos t) ^ 2 = y ^ 2 + x ^ 2 := by
    linear_combination (x ^ 2 + y ^ 2) * hs
  unfold ellRadius
  constructor
  · rw [← Real.sqrt_sq h0.le, ← Real.sqrt_mul (sq_nonneg q)]
    apply Real.sqrt_le_sqrt
    rw [Real.sqrt_sq h0.le, ← key]
    nlinarith [sq_nonneg (x * Real.sin t + y * Real.cos t), mul_le_one₀ h1 h0.le h1]
  · apply Real.sqrt_le_sqrt
    rw [← key]
    nlinarith [sq_nonneg (x * Real.cos t - y * Real.sin t), mul_le_one₀ h1 h0.le h1]

/-- **C108 (profile).** For an index of at least 0 every bin but the last of the radial profile of a generated image lies
between the requested law at the upper edge of the bin and the law at its lower edge shortened by the axis ratio.
Missing: the slope fitted to the binned profile, which is `-powerlaw` only up to the spread within the bins. -/
theorem C108_profile_partial (lsq : List (ℝ × ℝ × ℝ) → ℝ × ℝ) (lm : LevMar) (perms : ℕ → ℕ → ℕ) (o : EllipOpts)
    (a : PspecArgs) (hnb : a.nbins ≠ some 0) (hbs : 0 < a.binsize) (hf : a.returnFreqs = true)
    (hmax : a.maxBin = none) (hmin : a.minBin = none)
    (n : ℕ) (hn : 4 ≤ n) (hev : n % 2 = 0) (powerlaw theta ellip : ℝ) (hp : 0 ≤ powerlaw) (h0 : 0 < ellip) (h1 : ellip ≤ 1)
    (img : Arr2 ℝ) (hg : GeneratedField n powerlaw theta ellip img) (hb : NotBlank img) :
    ∃ A : ℝ, 1 ≤ A ∧ ∀ low high r, powerSpectrum2D lsq lm perms o a low high (img.map some) = .ok r →
      ∀ k, k + 2 < r.profile.edges.n → ∀ v, r.profile.ps1D.get k = some v →
        A * r.profile.edges.get (k + 1) ^ (-powerlaw) ≤ v ∧
        v ≤ A * (ellip * r.profile.edges.get k) ^ (-powerlaw) := by
  obtain ⟨i1, i2, A, hA, hlaw⟩ := C108_spectrum n (by omega) hev powerlaw theta ellip h0 h1 img hg hb
  refine ⟨A, hA, ?_⟩
  intro low high r h k hk v hv
  obtain ⟨st, ps, e1, e2, hpn, hpm, -, -, -, hval⟩ := image_law (by omega) i1 i2 hlaw
  have h' : runSpectrum lsq lm perms o a low high ps = .ok r := by
    simpa only [powerSpectrum2D, e1, e2, bind, Except.bind] using h
  obtain ⟨w, fmax, hprof, -, -, -⟩ := run_parts h'
  obtain ⟨s1, s2⟩ := ps2D_n (by omega) hpn hpm
  obtain ⟨c1, c2, c3, c4, c5, c6⟩ := profile_edges (by omega) s1 s2 hnb hbs hf hmax hmin hprof
  have hn0 : (0 : ℝ) < n := by exact_mod_cast (by omega : 0 < n)
  have hek : 0 < r.profile.edges.get k := by
    have : r.profile.edges.get 0 ≤ r.profile.edges.get k := by
      rcases Nat.eq_zero_or_pos k with h | h
      · rw [h]
      · exact (c1 0 k h (by omega)).le
    rw [c3] at this
    exact lt_of_lt_of_le (by positivity) this
  have hlast : r.profile.edges.get (k + 1) < 1 / 2 := by
    rw [← c4]; exact c1 _ _ (by omega) (by omega)
  refine C05_value_between _ { a with returnStddev := true } r.profile (by omega) (by omega)
    (by rw [s1, s2]; simp; omega) hprof c1 c2 k _ _ v hv ?_
  rintro ⟨i, j⟩ hp' x hx
  simp only [binPixels, mem_filter, mem_product, mem_range, s1, s2] at hp'
  obtain ⟨⟨hi, hj⟩, -, -, hin⟩ := hp'
  simp only at hx
  have hzero : ¬ (rowFreq n i = 0 ∧ colFreq n j = 0) := by
    intro hz
    have hr := hin.2.1
    have : r.profile.edges.get 0 ≤ r.profile.edges.get k := by
      rcases Nat.eq_zero_or_pos k with h | h
      · rw [h]
      · exact (c1 0 k h (by omega)).le
    rw [c3] at this
    simp only [binRadius, hf, if_true, freqRadius, if_pos hz, max_self] at hr
    have h' : 1 / (2 * (n : ℝ)) < 1 / n := by
      apply one_div_lt_one_div_of_lt hn0; linarith
    linarith
  simp only [binRadius, hf, if_true, freqRadius, if_neg hzero] at hin
  have hlt : Real.sqrt (((rowFreq n i : ℝ) / n) ^ 2 + ((colFreq n j : ℝ) / n) ^ 2) < r.profile.edges.get (k + 1) := by
    rcases hin.2.2 with h | ⟨h, -⟩
    · exact h
    · omega
  obtain ⟨b1, b2⟩ := below_half (by omega) (k := rowFreq n i) (l := colFreq n j) (lt_trans hlt hlast)
  rw [hval i hi j hj b1 b2 hzero] at hx
  simp only [Option.some.injEq] at hx
  subst hx
  obtain ⟨g1, g2⟩ := ellRadius_bounds (t := theta) (y := (rowFreq n i : ℝ) / n) (x := (colFreq n j : ℝ) / n) h0 h1
  have hql : 0 < ellip * r.profile.edges.get k := mul_pos h0 hek
  have g3 : ellip * r.profile.edges.get k ≤ ellRadius theta ellip ((rowFreq n i : ℝ) / n) ((colFreq n j : ℝ) / n) :=
    le_trans (mul_le_mul_of_nonneg_left hin.2.1 h0.le) g1
  constructor
  · apply mul_le_mul_of_nonneg_left _ (by linarith)
    exact Real.rpow_le_rpow_of_nonpos (lt_of_lt_of_le hql g3) (g2.trans hlt.le) (by linarith)
  · apply mul_le_mul_of_nonneg_left _ (by linarith)
    exact Real.rpow_le_rpow_of_nonpos hql g3 (by linarith)

/-! ### A draw of zero phases, and one with a deficient Nyquist mode -/

private theorem norm_of_one {n : ℕ} (hn : 0 < n) : phaseNorm n (fun _ _ => 0) = 1 := by
  unfold phaseNorm unitPhase
  have h : ((n * (np1 n + 1) : ℕ) : ℂ) ≠ 0 := by exact_mod_cast (by positivity : 0 < n * (np1 n + 1)).ne'
  simp only [Complex.ofReal_zero, Complex.cos_zero, Complex.sin_zero, mul_zero, add_zero, one_pow, sum_const, card_range,
    nsmul_eq_mul, mul_one]
  rw [← Nat.cast_mul, div_self h, Complex.one_cpow]

private theorem zero_draw {n : ℕ} (hn : 0 < n) (hev : n % 2 = 0) (p t q : ℝ) (h0 : 0 < q) (h1 : q ≤ 1) :
    ∃ img, GeneratedField n p t q img ∧ img.n = n ∧ img.m = n ∧
      ∀ k l : ℤ, IsMode n n k l → ¬ (k = 0 ∧ l = 0) → 0 < power2 img k l := by
  obtain ⟨img, hi, i1, i2, hd⟩ := image_half_spectrum n hn hev p t q h0 h1 (fun _ _ => 0)
  have hn0 : (n : ℝ) ≠ 0 := by exact_mod_cast hn.ne'
  refine ⟨img, ⟨_, hi⟩, i1, i2, ?_⟩
  have hraw : ∀ i < n, ∀ j ≤ n / 2, ¬ (i = 0 ∧ j = 0) → ∃ v : ℝ, v ≠ 0 ∧ (extRaw n p t q fun _ _ => 0).get i j = v := by
    intro i hi' j hj hne
    rw [extRaw_get h1 hi', norm_of_one hn]
    refine ⟨requested p (ellRadius t q (signedFreq n i) ((j : ℝ) / n)), ?_, by simp [unitPhase]⟩
    have hr : 0 < ellRadius t q (signedFreq n i) ((j : ℝ) / n) := by
      apply ellRadius_pos h0
      by_contra hcon
      push Not at hcon
      obtain ⟨c1, c2⟩ := hcon
      have c1' := (div_eq_zero_iff.1 c1).resolve_right hn0
      have hj0 : j = 0 := by exact_mod_cast c1'
      unfold signedFreq at c2
      split at c2
      · have := (div_eq_zero_iff.1 c2).resolve_right hn0
        exact hne ⟨by exact_mod_cast this, hj0⟩
      · have := (div_eq_zero_iff.1 c2).resolve_right hn0
        have : (i : ℝ) = n := by linarith
        have : i = n := by exact_mod_cast this
        omega
    unfold requested
    rw [if_neg hr.ne']
    exact (Real.rpow_pos_of_pos hr _).ne'
  have hhalf : ∀ i < n, ∀ j ≤ n / 2, ¬ (i = 0 ∧ j = 0) → 0 < power2 img i j := by
    intro i hi' j hj hne
    unfold power2
    rw [i1, i2, hd i hi' j hj]
    apply pow_pos
    apply norm_pos_iff.2
    split
    · obtain ⟨v, hv, e⟩ := hraw i hi' j hj hne
      rw [e]; exact_mod_cast hv
    · split
      · obtain ⟨v, hv, e⟩ := hraw i hi' j hj hne
        rw [e]; unfold realPart; simpa using hv
      · split
        · rename_i hx hneg _
          have hlt : negIx n i < n := by unfold negIx; split <;> omega
          obtain ⟨v, hv, e⟩ := hraw (negIx n i) hlt j hj (by
            rintro ⟨z1, z2⟩
            unfold negIx at z1 hneg
            split at z1 <;> omega)
          rw [e]; unfold cconj; simpa using hv
        · obtain ⟨v, hv, e⟩ := hraw i hi' j hj hne
          rw [e]; exact_mod_cast hv
  have hmod : ∀ k : ℤ, ∃ i < n, (n : ℤ) ∣ k - (i : ℤ) := by
    intro k
    refine ⟨(k % n).toNat, ?_, ?_⟩
    · have := Int.emod_lt_of_pos k (show (0 : ℤ) < n by omega)
      have := Int.emod_nonneg k (show (n : ℤ) ≠ 0 by omega)
      omega
    · have := Int.emod_nonneg k (show (n : ℤ) ≠ 0 by omega)
      rw [Int.toNat_of_nonneg this]
      exact Int.dvd_self_sub_emod
  have hup : ∀ k l : ℤ, 0 ≤ l → 2 * l ≤ n → 2 * |k| ≤ n → ¬ (k = 0 ∧ l = 0) → 0 < power2 img k l := by
    intro k l hl0 hl hk hne
    obtain ⟨i, hin, hdv⟩ := hmod k
    rw [power2_congr_freq img (k' := i) (l' := (l.toNat : ℤ)) (by rw [i1]; exact hdv)
      (by rw [Int.toNat_of_nonneg hl0]; simp)]
    apply hhalf i hin _ (by omega)
    rintro ⟨rfl, z⟩
    apply hne
    have hl' : l = 0 := by omega
    refine ⟨?_, hl'⟩
    obtain ⟨c, hc⟩ := hdv
    simp only [Nat.cast_zero, sub_zero] at hc
    have : c = 0 := by
      by_contra hc0
      have h1' : 1 ≤ |c| := Int.one_le_abs hc0
      have : |k| = n * |c| := by rw [hc, abs_mul]; simp
      nlinarith
    rw [hc, this]; simp
  intro k l hm hne
  unfold IsMode at hm
  rcases le_or_gt 0 l with hl | hl
  · exact hup k l hl (by omega) (by rcases abs_cases k with h | h <;> omega) hne
  · rw [← power2_neg]
    apply hup
    · omega
    · omega
    · rw [abs_neg]; rcases abs_cases k with h | h <;> omega
    · rintro ⟨z1, z2⟩; omega

private theorem notBlank_of_power {n : ℕ} (hn : 2 ≤ n) {img : Arr2 ℝ} (h1 : img.n = n) (h2 : img.m = n)
    (h : ∀ k l : ℤ, IsMode n n k l → ¬ (k = 0 ∧ l = 0) → 0 < power2 img k l) : NotBlank img := by
  by_contra hcon
  have hz : ∀ i < img.n, ∀ j < img.m, img.get i j = 0 := by
    intro i hi j hj
    by_contra hne
    exact hcon ⟨i, hi, j, hj, hne⟩
  have hsame : img.Same (scale2 0 img) := ⟨rfl, rfl, fun i hi j hj => by rw [hz i hi j hj]; simp [scale2]⟩
  have := h (-1) 0 (by unfold IsMode; omega) (by omega)
  rw [power2_congr hsame, power2_scale] at this
  simp at this

private theorem oracle_converges (fix : Bool) (st : EllipPar) : Converges oracleFit fix st := by
  intro w d p h1 h2 h3
  have h : ∃ p, InBounds p ∧ (fix = true → p.e = none) ∧ Reproduces p d := ⟨p, h1, h2, h3⟩
  unfold oracleFit
  rw [dif_pos h]
  exact h.choose_spec.2.2

/-- The hypotheses of `C108_image` are met: a 16 × 16 field of index 3, axis ratio 1/2 and angle 1 is generated and
analysed, and the fit gives those values. -/
example : ∃ img r, GeneratedField 16 3 1 (1 / 2) img ∧ NotBlank img ∧
    powerSpectrum2D lsqFormula oracleFit (fun _ => id) { bootstrap := true } {} none none (img.map some) = .ok r ∧
    r.fit2D.slope = -3 ∧ r.fit2D.ellip = 1 / 2 ∧ ∃ z : ℤ, r.fit2D.theta = 1 + z * Real.pi := by
  obtain ⟨img, hg, h1, h2, hpos⟩ := zero_draw (n := 16) (by norm_num) (by norm_num) 3 1 (1 / 2) (by norm_num) (by norm_num)
  have hb := notBlank_of_power (by norm_num) h1 h2 hpos
  obtain ⟨r, hr⟩ := C108_returns lsqFormula oracleFit (fun _ => id) { bootstrap := true } rfl rfl {} (by simp) (by norm_num) rfl
    rfl rfl rfl 16 (by norm_num) img h1 h2 hpos
  obtain ⟨g1, g2, -, -, g3⟩ := C108_image lsqFormula oracleFit (fun _ => id) { bootstrap := true } rfl
    (fun _ _ => oracle_converges _ _) {} (by simp) (by norm_num) rfl rfl rfl 16 (by norm_num) (by norm_num) 3 1 (1 / 2)
    (by norm_num) (by norm_num) ⟨by norm_num, by norm_num, by norm_num⟩ img hg hb r hr
  exact ⟨img, r, hg, hb, hr, g1, g2, g3⟩

/-- Those of `C108_isotropic_fixed` and `C108_unbinned_partial` too, with axis ratio 1. -/
example : ∃ img r A, GeneratedField 16 3 0 1 img ∧ NotBlank img ∧
    powerSpectrum2D lsqFormula oracleFit (fun _ => id) { bootstrap := true, fix := true } {} none none (img.map some) = .ok r ∧
    r.fit2D.slope = -3 ∧ r.fit2D.ellip = 1 ∧
    powerSpectrumRun lsqFormula none {} true none (some (1 / 3)) img = .ok (some (log10 A, -3)) := by
  obtain ⟨img, hg, h1, h2, hpos⟩ := zero_draw (n := 16) (by norm_num) (by norm_num) 3 0 1 (by norm_num) (by norm_num)
  have hb := notBlank_of_power (by norm_num) h1 h2 hpos
  obtain ⟨r, hr⟩ := C108_returns lsqFormula oracleFit (fun _ => id) { bootstrap := true, fix := true } rfl rfl {} (by simp)
    (by norm_num) rfl rfl rfl rfl 16 (by norm_num) img h1 h2 hpos
  obtain ⟨g1, g2⟩ := C108_isotropic_fixed lsqFormula oracleFit (fun _ => id) { bootstrap := true, fix := true } rfl
    (fun _ _ => oracle_converges _ _) (by
      intro w st d hst
      unfold oracleFit
      split
      · rename_i h
        exact h.choose_spec.2.1 rfl
      · exact hst) {} (by simp) (by norm_num) rfl rfl rfl 16 (by norm_num) (by norm_num) 3 0 (by norm_num) img hg hb r hr
  obtain ⟨A, -, hA⟩ := C108_unbinned_partial lsqFormula lsqFormula_leastSquares {} rfl 16 (by norm_num) (by norm_num) 3 0 (1 / 3)
    (by norm_num) (by norm_num) img hg hb
  exact ⟨img, r, A, hg, hb, hr, g1, g2, hA⟩

/-- Phases of a 4 × 4 draw: all 0 but `π/4` at the Nyquist mode `(2, 2)` and `-π/4` at `(1, 1)`. -/
private noncomputable def dimDraw : ℕ → ℕ → ℝ := fun i j =>
  if i = 2 ∧ j = 2 then Real.pi / 4 else if i = 1 ∧ j = 1 then -(Real.pi / 4) else 0

private theorem unitPhase_eq (t : ℝ) : unitPhase t = Complex.exp (t * Complex.I) := by
  unfold unitPhase; rw [Complex.exp_mul_I, mul_comm Complex.I]

private theorem dim_norm : phaseNorm 4 dimDraw = (Real.sqrt (5 / 6) : ℂ) := by
  have hsum : (∑ i ∈ range 4, ∑ j ∈ range (np1 4 + 1), unitPhase (dimDraw i j) ^ 2) = 10 := by
    have e1 : unitPhase (Real.pi / 4) ^ 2 = Complex.I := by
      rw [unitPhase_eq, ← Complex.exp_nat_mul]
      rw [show ((2 : ℕ) : ℂ) * (((Real.pi / 4 : ℝ) : ℂ) * Complex.I) = Real.pi / 2 * Complex.I by push_cast; ring]
      exact Complex.exp_pi_div_two_mul_I
    have e2 : unitPhase (-(Real.pi / 4)) ^ 2 = -Complex.I := by
      rw [unitPhase_eq, ← Complex.exp_nat_mul]
      rw [show ((2 : ℕ) : ℂ) * (((-(Real.pi / 4) : ℝ) : ℂ) * Complex.I) = -Real.pi / 2 * Complex.I by push_cast; ring]
      exact Complex.exp_neg_pi_div_two_mul_I
    have e0 : unitPhase 0 ^ 2 = 1 := by simp [unitPhase]
    simp [sum_range_succ, dimDraw, np1, e1, e2, e0]
    ring
  unfold phaseNorm
  rw [hsum, show ((4 * (np1 4 + 1) : ℕ) : ℂ) = 12 by norm_num [np1]]
  rw [show (10 / 12 : ℂ) = ((5 / 6 : ℝ) : ℂ) by push_cast; norm_num, show (1 / 2 : ℂ) = ((1 / 2 : ℝ) : ℂ) by push_cast; norm_num,
    ← Complex.ofReal_cpow (by norm_num), Real.sqrt_eq_rpow]

private theorem dim_power (p : ℝ) : ∃ img, GeneratedField 4 p 0 1 img ∧ img.n = 4 ∧ img.m = 4 ∧
    power2 img 1 2 = 6 / 5 * (Real.sqrt 5 / 4) ^ (-p) ∧ power2 img 3 2 = 6 / 5 * (Real.sqrt 5 / 4) ^ (-p) ∧
    power2 img 2 1 = 6 / 5 * (Real.sqrt 5 / 4) ^ (-p) ∧ power2 img 2 2 = 3 / 5 * (Real.sqrt 8 / 4) ^ (-p) := by
  obtain ⟨img, hi, i1, i2, hd⟩ := image_half_spectrum 4 (by norm_num) (by norm_num) p 0 1 one_pos (le_refl _) dimDraw
  have r5 : ∀ y x : ℝ, x ^ 2 + y ^ 2 = 5 / 16 → ellRadius 0 1 y x = Real.sqrt 5 / 4 := by
    intro y x h
    rw [ellRadius_one, h, show (5 : ℝ) / 16 = 5 / 4 ^ 2 by norm_num, Real.sqrt_div (by norm_num), Real.sqrt_sq (by norm_num)]
  have r8 : ∀ y x : ℝ, x ^ 2 + y ^ 2 = 8 / 16 → ellRadius 0 1 y x = Real.sqrt 8 / 4 := by
    intro y x h
    rw [ellRadius_one, h, show (8 : ℝ) / 16 = 8 / 4 ^ 2 by norm_num, Real.sqrt_div (by norm_num), Real.sqrt_sq (by norm_num)]
  have p5 : 0 < Real.sqrt 5 / 4 := by positivity
  have p8 : 0 < Real.sqrt 8 / 4 := by positivity
  have hN : ‖phaseNorm 4 dimDraw‖ ^ 2 = 5 / 6 := by
    rw [dim_norm, Complex.norm_real, Real.norm_eq_abs, sq_abs, Real.sq_sqrt (by norm_num)]
  have hu : ∀ t, ‖unitPhase t‖ = 1 := by
    intro t; rw [unitPhase_eq]; exact Complex.norm_exp_ofReal_mul_I t
  have hn5 : ∀ i < 4, ∀ j : ℕ, ((j : ℝ) / 4) ^ 2 + signedFreq 4 i ^ 2 = 5 / 16 →
      ‖(extRaw 4 p 0 1 dimDraw).get i j‖ ^ 2 = 6 / 5 * (Real.sqrt 5 / 4) ^ (-p) := by
    intro i hi' j h
    rw [extRaw_get (le_refl _) hi', norm_mul, norm_div, hu, mul_pow, div_pow, hN, Complex.norm_real, Real.norm_eq_abs, sq_abs]
    rw [r5 _ _ (by simpa using h), requested_sq p5]
    ring
  refine ⟨img, ⟨_, hi⟩, i1, i2, ?_, ?_, ?_, ?_⟩
  · have h := hd 1 (by norm_num) 2 (by norm_num)
    simp only [np1, negIx] at h
    norm_num at h
    unfold power2
    rw [i1, i2, h]
    unfold cconj
    rw [Complex.norm_conj]
    exact hn5 3 (by norm_num) 2 (by norm_num [signedFreq])
  · have h := hd 3 (by norm_num) 2 (by norm_num)
    simp only [np1, negIx] at h
    norm_num at h
    unfold power2
    rw [i1, i2, h]
    exact hn5 3 (by norm_num) 2 (by norm_num [signedFreq])
  · have h := hd 2 (by norm_num) 1 (by norm_num)
    simp only [np1, negIx] at h
    norm_num at h
    unfold power2
    rw [i1, i2, h]
    exact hn5 2 (by norm_num) 1 (by norm_num [signedFreq])
  · have h := hd 2 (by norm_num) 2 (by norm_num)
    simp only [np1, negIx] at h
    norm_num at h
    unfold power2
    rw [i1, i2, h]
    rw [extRaw_get (le_refl _) (by norm_num), dim_norm, r8 _ _ (by norm_num [signedFreq])]
    have : dimDraw 2 2 = Real.pi / 4 := by simp [dimDraw]
    rw [this]
    have hre : realPart ((requested p (Real.sqrt 8 / 4) : ℂ) * (unitPhase (Real.pi / 4) / (Real.sqrt (5 / 6) : ℂ))) =
        ((requested p (Real.sqrt 8 / 4) * (Real.cos (Real.pi / 4) / Real.sqrt (5 / 6)) : ℝ) : ℂ) := by
      unfold realPart
      rw [Complex.re_ofReal_mul, ← Complex.ofReal_inj.2 rfl]
      rw [Complex.div_ofReal_re]
      congr 3
      rw [unitPhase_eq, Complex.exp_ofReal_mul_I_re]
    rw [hre, Complex.norm_real, Real.norm_eq_abs, sq_abs, mul_pow, requested_sq p8, div_pow, Real.sq_sqrt (by norm_num),
      Real.cos_pi_div_four, div_pow, Real.sq_sqrt (by norm_num)]
    ring

/-- **C108 (unbinned fit, default limits) is violated.** Some draw of a 4 × 4 isotropic field gives, for every index and
with the default limits, a slope that is too steep by `2 log 2 / log (8/5)`: the default range ends at the Nyquist mode
of both axes, of which the generator keeps only the real part. -/
theorem C108_unbinned_violated (powerlaw : ℝ) :
    ∃ img, GeneratedField 4 powerlaw 0 1 img ∧ NotBlank img ∧
      ∃ c : ℝ, ∀ lsq : List (ℝ × ℝ × ℝ) → ℝ × ℝ, LeastSquares lsq →
        powerSpectrumRun lsq none {} true none none img = .ok (some (c, -powerlaw - 2 * Real.log 2 / Real.log (8 / 5))) := by
  obtain ⟨img, hg, i1, i2, m12, m32, m21, m22⟩ := dim_power powerlaw
  have p5 : 0 < Real.sqrt 5 / 4 := by positivity
  have p8 : 0 < Real.sqrt 8 / 4 := by positivity
  refine ⟨img, hg, ?_, ?_⟩
  · by_contra hcon
    have hz : ∀ i < img.n, ∀ j < img.m, img.get i j = 0 := by
      intro i hi j hj
      by_contra hne
      exact hcon ⟨i, hi, j, hj, hne⟩
    have hsame : img.Same (scale2 0 img) := ⟨rfl, rfl, fun i hi j hj => by rw [hz i hi j hj]; simp [scale2]⟩
    rw [power2_congr hsame, power2_scale] at m12
    have := Real.rpow_pos_of_pos p5 (-powerlaw)
    simp at m12
    linarith
  set δ := 2 * Real.log 2 / Real.log (8 / 5) with hδ
  have hl85 : Real.log (8 / 5) ≠ 0 := (Real.log_pos (by norm_num)).ne'
  set A := 6 / 5 * (Real.sqrt 5 / 4) ^ δ with hA
  have hApos : 0 < A := by have := Real.rpow_pos_of_pos p5 δ; positivity
  have v5 : A * (Real.sqrt 5 / 4) ^ (-powerlaw - δ) = 6 / 5 * (Real.sqrt 5 / 4) ^ (-powerlaw) := by
    rw [hA, mul_assoc, ← Real.rpow_add p5]; congr 2; ring
  have v8 : A * (Real.sqrt 8 / 4) ^ (-powerlaw - δ) = 3 / 5 * (Real.sqrt 8 / 4) ^ (-powerlaw) := by
    have e : (Real.sqrt 8 / 4) ^ δ = 2 * (Real.sqrt 5 / 4) ^ δ := by
      have : Real.sqrt 8 / 4 = Real.sqrt (8 / 5) * (Real.sqrt 5 / 4) := by
        rw [← mul_div_assoc, ← Real.sqrt_mul (by norm_num)]; norm_num
      rw [this, Real.mul_rpow (Real.sqrt_nonneg _) p5.le]
      congr 1
      rw [Real.sqrt_eq_rpow, ← Real.rpow_mul (by norm_num), Real.rpow_def_of_pos (by norm_num), hδ]
      rw [show Real.log (8 / 5) * (1 / 2 * (2 * Real.log 2 / Real.log (8 / 5))) = Real.log 2 by field_simp]
      exact Real.exp_log (by norm_num)
    have h5 := Real.rpow_pos_of_pos p5 δ
    rw [hA, Real.rpow_sub p8, e]
    field_simp
    norm_num
  refine ⟨log10 A, fun lsq hl => ?_⟩
  obtain ⟨ps, hps, e1, e2, -⟩ := C02_compute_pspec img (by omega) (by omega)
  obtain ⟨p1, p2, -⟩ := C02_ps2D_property ps 0 0 (by omega)
  obtain ⟨out, hout⟩ := (C05_defined_iff ((ps2DProperty ps).map some) { ({} : PspecArgs) with returnStddev := true }
    (by simp only [Arr2.map]; omega) (by simp only [Arr2.map]; omega)
    (by simp only [Arr2.map]; omega)).2 (by simp)
  unfold powerSpectrumRun radialBins
  simp only [hps, hout, bind, Except.bind, pure, Except.pure, if_true]
  have hfreq : ∀ k l : ℤ, modeFreq 4 4 k l = Real.sqrt ((k ^ 2 + l ^ 2 : ℤ)) / 4 := by
    intro k l
    unfold modeFreq
    rw [show (((k : ℝ) / ((4 : ℕ) : ℝ)) ^ 2 + ((l : ℝ) / ((4 : ℕ) : ℝ)) ^ 2) = ((k ^ 2 + l ^ 2 : ℤ) : ℝ) / 4 ^ 2 by push_cast; ring,
      Real.sqrt_div' _ (by norm_num), Real.sqrt_sq (by norm_num)]
  have f22 : modeFreq 4 4 (-2) (-2) = Real.sqrt 8 / 4 := by rw [hfreq]; norm_num
  have f12 : modeFreq 4 4 1 (-2) = Real.sqrt 5 / 4 := by rw [hfreq]; norm_num
  have s58 : Real.sqrt 5 / 4 < Real.sqrt 8 / 4 :=
    div_lt_div_of_pos_right (Real.sqrt_lt_sqrt (by norm_num) (by norm_num)) (by norm_num)
  have s45 : (1 : ℝ) / 2 < Real.sqrt 5 / 4 := by
    have : (2 : ℝ) < Real.sqrt 5 := Real.lt_sqrt_of_sq_lt (by norm_num)
    linarith
  apply C69_unbinned lsq hl none none img ps (by omega) (by omega) hps (1 / 2) (Real.sqrt 8 / 4)
    ⟨by rw [i1, i2]; norm_num, ?_⟩ (by norm_num) A _ hApos ?_ 1 (-2) (-2) (-2)
  · unfold IsMode; rw [i1, i2]; norm_num
  · unfold IsMode; rw [i1, i2]; norm_num
  · rw [i1, i2, f12]; exact ⟨s45, s58.le⟩
  · rw [i1, i2, f22]; exact ⟨s45.trans s58, le_refl _⟩
  · rw [i1, i2, f12, f22]; exact s58.ne
  · rw [i1, i2]
    refine ⟨⟨-2, -2, by unfold IsMode; norm_num, f22.symm⟩, ?_⟩
    rintro f ⟨k, l, hm, rfl⟩
    rw [hfreq]
    apply div_le_div_of_nonneg_right _ (by norm_num)
    apply Real.sqrt_le_sqrt
    unfold IsMode at hm
    have : k ^ 2 + l ^ 2 ≤ 8 := by
      have : -2 ≤ k ∧ k ≤ 2 ∧ -2 ≤ l ∧ l ≤ 2 := by omega
      nlinarith
    exact_mod_cast this
  · intro k l hm hlow _
    rw [i1, i2] at hm hlow ⊢
    rw [hfreq] at hlow
    have h4 : 4 < k ^ 2 + l ^ 2 := by
      have : (2 : ℝ) < Real.sqrt ((k ^ 2 + l ^ 2 : ℤ)) := by linarith
      have := (Real.lt_sqrt (by norm_num)).1 this
      have : (4 : ℝ) < ((k ^ 2 + l ^ 2 : ℤ) : ℝ) := by linarith
      exact_mod_cast this
    unfold IsMode at hm
    have b : -2 ≤ k ∧ k ≤ 1 ∧ -2 ≤ l ∧ l ≤ 1 := by omega
    have cong : ∀ k l k' l' : ℤ, (4 : ℤ) ∣ k - k' → (4 : ℤ) ∣ l - l' → power2 img k l = power2 img k' l' := by
      intro k l k' l' h h'
      exact power2_congr_freq img (by rw [i1]; exact h) (by rw [i2]; exact h')
    have cases5 : (k = 1 ∧ l = -2) ∨ (k = -1 ∧ l = -2) ∨ (k = -2 ∧ l = 1) ∨ (k = -2 ∧ l = -1) ∨ (k = -2 ∧ l = -2) := by
      obtain ⟨b1, b2, b3, b4⟩ := b
      interval_cases k <;> interval_cases l <;> simp_all
    rcases cases5 with ⟨rfl, rfl⟩ | ⟨rfl, rfl⟩ | ⟨rfl, rfl⟩ | ⟨rfl, rfl⟩ | ⟨rfl, rfl⟩
    · rw [cong _ _ 1 2 (by norm_num) (by norm_num), m12, f12, v5]
    · rw [cong _ _ 3 2 (by norm_num) (by norm_num), m32, hfreq]; norm_num [v5]
    · rw [cong _ _ 2 1 (by norm_num) (by norm_num), m21, hfreq]; norm_num [v5]
    · rw [← power2_neg, cong _ _ 2 1 (by norm_num) (by norm_num), m21, hfreq]; norm_num [v5]
    · rw [cong _ _ 2 2 (by norm_num) (by norm_num), m22, f22, v8]

end TS
