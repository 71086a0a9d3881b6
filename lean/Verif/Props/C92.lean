import Verif.Model.SpatialWidth
import Verif.Lemmas.Psds
import Verif.Props.C34
import Verif.Props.C37
import Verif.Props.C51
import Verif.Props.C74
import Verif.Props.C77
import Verif.Props.C90
import Mathlib.Analysis.SpecialFunctions.Exp

/-! C92 — the spatial widths of the principal components. -/

namespace TS
open Finset

namespace Spec

/-- Lag of a pixel of an autocorrelation image of `n` by `m` pixels: lag 0 at `(n // 2, m // 2)`. -/
def lagOf (n m i j : ℕ) : ℝ × ℝ := ((i : ℝ) - (n / 2 : ℕ), (j : ℝ) - (m / 2 : ℕ))

/-- Elliptical Gaussian of height 1 about the origin with standard deviations `sx`, `sy`, turned by `th`. -/
noncomputable def ellGauss (sx sy th : ℝ) (p : ℝ × ℝ) : ℝ :=
  Real.exp (-((p.1 * Real.cos th + p.2 * Real.sin th) ^ 2 / (2 * sx ^ 2) + (-p.1 * Real.sin th + p.2 * Real.cos th) ^ 2 / (2 * sy ^ 2)))

/-- Sum of the squared residuals of a surface with the given amplitude. -/
noncomputable def surfaceError (amp : ℝ) (z : Arr2 ℝ) (g : Gauss2D) : ℝ :=
  ∑ i ∈ range z.n, ∑ j ∈ range z.m, (amp * ellGauss g.sx g.sy g.theta (lagOf z.n z.m i j) + g.const - z.get i j) ^ 2

/-- Contract of the surface fitter: no surface with the amplitude fixed at the image maximum is closer to the image. -/
def FitsSurface (ext : WidthExt) (z : Arr2 ℝ) : Prop :=
  (ext.gauss z).sx ≠ 0 ∧ (ext.gauss z).sy ≠ 0 ∧
    ∀ amp, npMax z.ravel = .ok amp → ∀ g : Gauss2D, g.sx ≠ 0 → g.sy ≠ 0 → surfaceError amp z (ext.gauss z) ≤ surfaceError amp z g

/-- Autocorrelation of the eigenimage of component `q` (without its first pixel, see C62) at a pixel. -/
noncomputable def compAcf (cube : Arr3 (Option ℝ)) (st : PcaState) (q r c : ℕ) : ℝ :=
  circAcf cube.m cube.p (cornerless (eigImage st.meanSub cube (fun a => st.eigvecs a q)).get)
    ((r : ℤ) - (cube.m / 2 : ℕ)) ((c : ℤ) - (cube.p / 2 : ℕ))

/-- Mean autocorrelation of some components at a pixel. -/
noncomputable def meanCompAcf (cube : Arr3 (Option ℝ)) (st : PcaState) (ix : List ℕ) (r c : ℕ) : ℝ :=
  (ix.map fun q => compAcf cube st q r c).sum / ix.length

/-- The function finding contours looks at the pixels of an image only. -/
def LooksAtPixels (ext : WidthExt) : Prop :=
  ∀ a b : Arr2 (Option ℝ), a.n = b.n → a.m = b.m → (∀ i < a.n, ∀ j < a.m, a.get i j = b.get i j) → ext.contours a = ext.contours b

/-- A cube with every present value multiplied by `c`. -/
noncomputable def timesCube (c : ℝ) (cube : Arr3 (Option ℝ)) : Arr3 (Option ℝ) :=
  ⟨cube.n, cube.m, cube.p, fun v i j => (cube.get v i j).map (c * ·)⟩

end Spec
open Spec

/-! ### The grid of lags -/

private theorem shift_lag {n i : ℕ} (hi : i < n) : lagAxis n (rollIx n ((n / 2 : ℕ) : ℤ) i) = (i : ℝ) - (n / 2 : ℕ) := by
  have hn : 0 < n := by omega
  have hc := rollIx_cast hn ((n / 2 : ℕ) : ℤ) i
  have hlt := rollIx_lt hn ((n / 2 : ℕ) : ℤ) i
  set k := rollIx n ((n / 2 : ℕ) : ℤ) i with hk
  by_cases h : n / 2 ≤ i
  · have e : k = i - n / 2 := by
      have : ((i : ℤ) - ((n / 2 : ℕ) : ℤ)) % n = (i : ℤ) - ((n / 2 : ℕ) : ℤ) := Int.emod_eq_of_lt (by omega) (by omega)
      rw [this] at hc; omega
    rw [lagAxis_half hlt (by omega), e, Nat.cast_sub h]
  · have e : k = i + n - n / 2 := by
      have : ((i : ℤ) - ((n / 2 : ℕ) : ℤ)) % n = (i : ℤ) - ((n / 2 : ℕ) : ℤ) + n := by
        rw [← Int.add_emod_right]; exact Int.emod_eq_of_lt (by omega) (by omega)
      rw [this] at hc; omega
    rw [lagAxis_second hlt (by omega), e, Nat.cast_sub (by omega)]
    push_cast
    ring

/-- **C92 (lags).** The coordinates used by every method are the lags of the autocorrelation image: 0 at its centre pixel, one pixel
apart. -/
theorem C92_lags (n m i j : ℕ) (hi : i < n) (hj : j < m) : (lagMat n m).get i j = lagOf n m i j := by
  unfold lagMat Arr2.fftshift Arr2.roll0 Arr2.roll1 lagOf
  simp only
  rw [shift_lag hi, shift_lag hj]

/-! ### The Gaussian fit -/

private theorem surface_eq (amp : ℝ) (g : Gauss2D) (p : ℝ × ℝ) :
    gaussSurface amp g p = amp * ellGauss g.sx g.sy g.theta p + g.const := by
  unfold gaussSurface ellGauss
  simp only
  rw [Real.sin_two_mul]
  congr 3
  simp only [div_eq_mul_inv, mul_inv]
  ring

private theorem quad_form (sx sy th x y : ℝ) (h : sx ≠ 0) (h' : sy ≠ 0) :
    ∃ a b c : ℝ, (∀ p : ℝ × ℝ, ellGauss sx sy th p = Real.exp (-(a * p.1 ^ 2 + b * (p.1 * p.2) + c * p.2 ^ 2))) ∧ 0 < a ∧
      4 * a * c - b ^ 2 = 1 / (sx ^ 2 * sy ^ 2) ∧ (sx ^ 2 + sy ^ 2) * (4 * a * c - b ^ 2) = 2 * (a + c) := by
  have hcs := Real.sin_sq_add_cos_sq th
  set s := Real.sin th with hs
  set t := Real.cos th with ht
  refine ⟨(t ^ 2 / sx ^ 2 + s ^ 2 / sy ^ 2) / 2, s * t * (1 / sx ^ 2 - 1 / sy ^ 2), (s ^ 2 / sx ^ 2 + t ^ 2 / sy ^ 2) / 2, ?_, ?_, ?_⟩
  · intro p
    unfold ellGauss
    rw [← hs, ← ht]
    congr 2
    field_simp
    ring
  · rcases eq_or_ne t 0 with h0 | h0
    · have : s ^ 2 = 1 := by rw [h0] at hcs; linarith [hcs]
      rw [this]; positivity
    · positivity
  · have key : 4 * ((t ^ 2 / sx ^ 2 + s ^ 2 / sy ^ 2) / 2) * ((s ^ 2 / sx ^ 2 + t ^ 2 / sy ^ 2) / 2) -
        (s * t * (1 / sx ^ 2 - 1 / sy ^ 2)) ^ 2 = 1 / (sx ^ 2 * sy ^ 2) := by
      have : 4 * ((t ^ 2 / sx ^ 2 + s ^ 2 / sy ^ 2) / 2) * ((s ^ 2 / sx ^ 2 + t ^ 2 / sy ^ 2) / 2) -
        (s * t * (1 / sx ^ 2 - 1 / sy ^ 2)) ^ 2 = (s ^ 2 + t ^ 2) ^ 2 / (sx ^ 2 * sy ^ 2) := by field_simp; ring
      rw [this, hcs]; norm_num
    refine ⟨key, ?_⟩
    rw [key]
    have : 2 * ((t ^ 2 / sx ^ 2 + s ^ 2 / sy ^ 2) / 2 + (s ^ 2 / sx ^ 2 + t ^ 2 / sy ^ 2) / 2) =
      (s ^ 2 + t ^ 2) * (1 / sx ^ 2 + 1 / sy ^ 2) := by ring
    rw [this, hcs]
    field_simp
    ring

private theorem ell_origin (sx sy th : ℝ) : ellGauss sx sy th (0, 0) = 1 := by simp [ellGauss]

private theorem ell_le (sx sy th : ℝ) (p : ℝ × ℝ) : ellGauss sx sy th p ≤ 1 := by
  unfold ellGauss
  rw [Real.exp_le_one_iff, neg_nonpos]
  positivity

private theorem lag_zero (n m : ℕ) : lagOf n m (n / 2) (m / 2) = (0, 0) := by simp [lagOf]

/-- Two Gaussian surfaces of the same amplitude that agree on a grid of at least 2 by 2 pixels have the same constant and the same
sum of squared widths. -/
private theorem surfaces_agree {n m : ℕ} (hn : 2 ≤ n) (hm : 2 ≤ m) (amp : ℝ) (ha : 0 < amp) (g g' : Gauss2D) (h1 : g.sx ≠ 0) (h2 : g.sy ≠ 0)
    (h1' : g'.sx ≠ 0) (h2' : g'.sy ≠ 0)
    (h : ∀ i < n, ∀ j < m, amp * ellGauss g.sx g.sy g.theta (lagOf n m i j) + g.const =
      amp * ellGauss g'.sx g'.sy g'.theta (lagOf n m i j) + g'.const) :
    g.const = g'.const ∧ g.sx ^ 2 + g.sy ^ 2 = g'.sx ^ 2 + g'.sy ^ 2 := by
  obtain ⟨a, b, c, e, -, d, t⟩ := quad_form g.sx g.sy g.theta 0 0 h1 h2
  obtain ⟨a', b', c', e', -, d', t'⟩ := quad_form g'.sx g'.sy g'.theta 0 0 h1' h2'
  have h0 := h (n / 2) (by omega) (m / 2) (by omega)
  rw [lag_zero, ell_origin, ell_origin] at h0
  have hc : g.const = g'.const := by linarith
  have lag1 : ∀ k : ℕ, 2 ≤ k → ((k / 2 - 1 : ℕ) : ℝ) - (k / 2 : ℕ) = -1 := by
    intro k hk
    rw [Nat.cast_sub (by omega)]; push_cast; ring
  have eqv : ∀ i < n, ∀ j < m, a * (lagOf n m i j).1 ^ 2 + b * ((lagOf n m i j).1 * (lagOf n m i j).2) + c * (lagOf n m i j).2 ^ 2 =
      a' * (lagOf n m i j).1 ^ 2 + b' * ((lagOf n m i j).1 * (lagOf n m i j).2) + c' * (lagOf n m i j).2 ^ 2 := by
    intro i hi j hj
    have := h i hi j hj
    rw [hc, add_left_inj, mul_right_inj' ha.ne', e, e', Real.exp_eq_exp] at this
    linarith
  have ea := eqv (n / 2 - 1) (by omega) (m / 2) (by omega)
  have ec := eqv (n / 2) (by omega) (m / 2 - 1) (by omega)
  have eb := eqv (n / 2 - 1) (by omega) (m / 2 - 1) (by omega)
  simp only [lagOf, lag1 n hn, lag1 m hm, sub_self] at ea ec eb
  have haa : a = a' := by nlinarith
  have hcc : c = c' := by nlinarith
  have hbb : b = b' := by nlinarith
  subst haa hcc hbb
  refine ⟨hc, ?_⟩
  have hd : 4 * a * c - b ^ 2 ≠ 0 := by rw [d]; positivity
  exact mul_right_cancel₀ hd (t.trans t'.symm)

/-- **C92 (Gaussian fit).** When an autocorrelation image, after the noise is subtracted, is an elliptical Gaussian of any
orientation, the width found by the `fit` method is the root of the sum of its squared standard deviations, which for a round one is
the radius at which it has fallen to 1/e; its error is propagated from those of the two fitted widths. -/
theorem C92_fit (ext : WidthExt) (img noise : Arr2 ℝ) (hn : 2 ≤ img.n) (hm : 2 ≤ img.m) (amp sx sy th : ℝ) (ha : 0 < amp) (hx : 0 < sx)
    (hy : 0 < sy) (hz : ∀ i < img.n, ∀ j < img.m, img.get i j - noise.get i j = amp * ellGauss sx sy th (lagOf img.n img.m i j))
    (hfit : FitsSurface ext (subImage img noise)) (beam cdelt : Option SQ) :
    (∃ g, g = ext.gauss (subImage img noise) ∧ widthEstimate2D ext [img] noise .fit false beam cdelt =
      .ok [(some (Real.sqrt (sx ^ 2 + sy ^ 2)),
        some (Real.sqrt ((g.sx * g.esx) ^ 2 + (g.sy * g.esy) ^ 2) / Real.sqrt (sx ^ 2 + sy ^ 2)))]) ∧
      (sx = sy → ∀ p : ℝ × ℝ, Real.sqrt (p.1 ^ 2 + p.2 ^ 2) = Real.sqrt (sx ^ 2 + sy ^ 2) → ellGauss sx sy th p = Real.exp (-1)) := by
  constructor
  · set z := subImage img noise with hzdef
    have hmx : npMax z.ravel = .ok amp := by
      refine npMax_eq (mem_ravel.2 ⟨img.n / 2, ?_, img.m / 2, ?_, ?_⟩) ?_
      · show img.n / 2 < img.n; omega
      · show img.m / 2 < img.m; omega
      · show img.get _ _ - noise.get _ _ = amp
        rw [hz _ (by omega) _ (by omega), lag_zero, ell_origin, mul_one]
      · intro y hy
        obtain ⟨i, hi, j, hj, rfl⟩ := mem_ravel.1 hy
        show img.get _ _ - noise.get _ _ ≤ amp
        rw [hz i hi j hj]
        nlinarith [ell_le sx sy th (lagOf img.n img.m i j)]
    obtain ⟨g1, g2, g3⟩ := hfit
    have h0 : surfaceError amp z ⟨sx, sy, th, 0, 0, 0⟩ = 0 := by
      refine sum_eq_zero fun i hi => sum_eq_zero fun j hj => ?_
      have := hz i (mem_range.1 hi) j (mem_range.1 hj)
      show (amp * ellGauss sx sy th (lagOf img.n img.m i j) + 0 - (img.get i j - noise.get i j)) ^ 2 = 0
      rw [this]; ring
    have hle := g3 amp hmx ⟨sx, sy, th, 0, 0, 0⟩ hx.ne' hy.ne'
    rw [h0] at hle
    have hzero : ∀ i < img.n, ∀ j < img.m, amp * ellGauss (ext.gauss z).sx (ext.gauss z).sy (ext.gauss z).theta (lagOf img.n img.m i j) +
        (ext.gauss z).const = amp * ellGauss sx sy th (lagOf img.n img.m i j) + 0 := by
      have hs : surfaceError amp z (ext.gauss z) = 0 :=
        le_antisymm hle (sum_nonneg fun i _ => sum_nonneg fun j _ => sq_nonneg _)
      intro i hi j hj
      unfold surfaceError at hs
      rw [sum_eq_zero_iff_of_nonneg (fun i _ => sum_nonneg fun j _ => sq_nonneg _)] at hs
      have h1 := hs i (mem_range.2 hi)
      rw [sum_eq_zero_iff_of_nonneg (fun j _ => sq_nonneg _)] at h1
      have h2 := pow_eq_zero_iff (two_ne_zero) |>.1 (h1 j (mem_range.2 hj))
      have h3 : z.get i j = amp * ellGauss sx sy th (lagOf img.n img.m i j) := hz i hi j hj
      have h4 : z.n = img.n := rfl
      have h5 : z.m = img.m := rfl
      rw [h3, h4, h5] at h2
      linarith
    obtain ⟨-, ht⟩ := surfaces_agree hn hm amp ha (ext.gauss z) ⟨sx, sy, th, 0, 0, 0⟩ g1 g2 hx.ne' hy.ne' hzero
    refine ⟨_, rfl, ?_⟩
    unfold widthEstimate2D
    simp only [List.mapM_cons, List.mapM_nil, imageWidths, bind, Except.bind, pure, Except.pure, finishWidths, List.map_cons, List.map_nil,
      Bool.false_eq_true, if_false, id]
    rw [← hzdef]
    simp only at ht
    have hpos : Real.sqrt (sx ^ 2 + sy ^ 2) ≠ 0 := (Real.sqrt_pos.2 (by positivity)).ne'
    have : Real.sqrt ((ext.gauss z).sy ^ 2 + (ext.gauss z).sx ^ 2) = Real.sqrt (sx ^ 2 + sy ^ 2) := by rw [← ht, add_comm]
    simp only [widthOf, this, divO, Option.bind_eq_bind, Option.bind_some, hpos, if_false]
  · rintro rfl p hp
    have h1 : p.1 ^ 2 + p.2 ^ 2 = sx ^ 2 + sx ^ 2 := (Real.sqrt_inj (by positivity) (by positivity)).1 hp
    unfold ellGauss
    congr 2
    have hcs := Real.sin_sq_add_cos_sq th
    rw [← add_div, show (p.1 * Real.cos th + p.2 * Real.sin th) ^ 2 + (-p.1 * Real.sin th + p.2 * Real.cos th) ^ 2 =
      (p.1 ^ 2 + p.2 ^ 2) * (Real.sin th ^ 2 + Real.cos th ^ 2) by ring, h1, hcs]
    field_simp
    ring

/-- **C92 (Gaussian fit, violation).** The amplitude is fixed at the image maximum, so the fitted constant is of no use: an image that
is a Gaussian on a positive pedestal is not matched by any choice of the free parameters. -/
theorem C92_pedestal_violated (z : Arr2 ℝ) (hn : 4 ≤ z.n) (hm : 1 ≤ z.m) (amp ped sx sy th : ℝ) (ha : 0 < amp) (hp : 0 < ped) (hx : 0 < sx)
    (hy : 0 < sy) (hz : ∀ i < z.n, ∀ j < z.m, z.get i j = amp * ellGauss sx sy th (lagOf z.n z.m i j) + ped) :
    ∃ mx, npMax z.ravel = .ok mx ∧ ∀ g : Gauss2D, g.sx ≠ 0 → g.sy ≠ 0 → 0 < surfaceError mx z g := by
  refine ⟨amp + ped, ?_, fun g h1 h2 => ?_⟩
  · refine npMax_eq (mem_ravel.2 ⟨z.n / 2, by omega, z.m / 2, by omega, ?_⟩) ?_
    · rw [hz _ (by omega) _ (by omega), lag_zero, ell_origin, mul_one]
    · intro y hy
      obtain ⟨i, hi, j, hj, rfl⟩ := mem_ravel.1 hy
      rw [hz i hi j hj]
      nlinarith [ell_le sx sy th (lagOf z.n z.m i j)]
  · refine lt_of_le_of_ne (sum_nonneg fun i _ => sum_nonneg fun j _ => sq_nonneg _) fun hs => ?_
    have hs := hs.symm
    unfold surfaceError at hs
    rw [sum_eq_zero_iff_of_nonneg (fun i _ => sum_nonneg fun j _ => sq_nonneg _)] at hs
    have pix : ∀ i < z.n, ∀ j < z.m, (amp + ped) * ellGauss g.sx g.sy g.theta (lagOf z.n z.m i j) + g.const =
        amp * ellGauss sx sy th (lagOf z.n z.m i j) + ped := by
      intro i hi j hj
      have h1 := hs i (mem_range.2 hi)
      rw [sum_eq_zero_iff_of_nonneg (fun j _ => sq_nonneg _)] at h1
      have h2 := pow_eq_zero_iff (two_ne_zero) |>.1 (h1 j (mem_range.2 hj))
      rw [hz i hi j hj] at h2
      linarith
    obtain ⟨a, b, c, e, ha', -⟩ := quad_form g.sx g.sy g.theta 0 0 h1 h2
    obtain ⟨a', b', c', e', ha'', -⟩ := quad_form sx sy th 0 0 hx.ne' hy.ne'
    have p0 := pix (z.n / 2) (by omega) (z.m / 2) (by omega)
    have p1 := pix (z.n / 2 - 1) (by omega) (z.m / 2) (by omega)
    have p2 := pix (z.n / 2 - 2) (by omega) (z.m / 2) (by omega)
    rw [lag_zero, ell_origin, ell_origin] at p0
    have hc : g.const = 0 := by linarith
    have l1 : lagOf z.n z.m (z.n / 2 - 1) (z.m / 2) = (-1, 0) := by
      unfold lagOf; rw [Nat.cast_sub (by omega)]; push_cast; simp
    have l2 : lagOf z.n z.m (z.n / 2 - 2) (z.m / 2) = (-2, 0) := by
      unfold lagOf; rw [Nat.cast_sub (by omega)]; push_cast; simp
    rw [l1, hc, e, e'] at p1
    rw [l2, hc, e, e'] at p2
    have q4 : ∀ t : ℝ, Real.exp (-(t * (-2) ^ 2)) = Real.exp (-t) ^ 4 := by
      intro t; rw [← Real.exp_nat_mul]; congr 1; push_cast; ring
    norm_num at p1 p2
    have r4 : ∀ t : ℝ, Real.exp (-(t * 4)) = Real.exp (-t) ^ 4 := by
      intro t; rw [← Real.exp_nat_mul]; congr 1; push_cast; ring
    rw [r4, r4] at p2
    have hv1 : Real.exp (-a') < 1 := by rw [Real.exp_lt_one_iff]; linarith
    have hv0 : 0 < Real.exp (-a') := Real.exp_pos _
    set u := Real.exp (-a)
    set v := Real.exp (-a')
    set w := amp / (amp + ped) with hw
    have hw0 : 0 < w := by positivity
    have hw1 : w < 1 := by rw [hw, div_lt_one (by positivity)]; linarith
    have hA : amp = w * (amp + ped) := by rw [hw]; field_simp
    have hP : ped = (1 - w) * (amp + ped) := by linarith
    have hS : amp + ped ≠ 0 := by positivity
    have e1 : u = w * v + (1 - w) := by
      apply mul_left_cancel₀ hS
      rw [p1]
      nlinarith
    have e2 : u ^ 4 = w * v ^ 4 + (1 - w) := by
      apply mul_left_cancel₀ hS
      rw [p2]
      have : (amp + ped) * (w * v ^ 4 + (1 - w)) = (w * (amp + ped)) * v ^ 4 + (1 - w) * (amp + ped) := by ring
      rw [this, ← hA, ← hP]
    have sq1 : u ^ 2 < w * v ^ 2 + (1 - w) := by
      rw [e1]
      nlinarith [mul_pos (mul_pos hw0 (sub_pos.2 hw1)) (pow_pos (sub_pos.2 hv1) 2)]
    have hu0 : 0 ≤ u ^ 2 := sq_nonneg _
    have sq2 : (w * v ^ 2 + (1 - w)) ^ 2 ≤ w * v ^ 4 + (1 - w) := by
      nlinarith [mul_nonneg (mul_pos hw0 (sub_pos.2 hw1)).le (sq_nonneg (1 - v ^ 2))]
    nlinarith

/-! ### The interpolating methods -/

/-- **C92 (interpolation, violation).** Images of fewer than 100 pixels make both interpolating methods fail: the step between knots is
rounded down to zero. -/
theorem C92_small_violated (ext : WidthExt) (z : Arr2 ℝ) (h0 : 0 < z.n * z.m) (h : z.n * z.m < 100) :
    imageWidths ext z .interpolate = .error .valueError ∧ imageWidths ext z .xinterpolate = .error .valueError := by
  have hlen : ∀ {α : Type} (a : Arr2 α), a.ravel.length = a.n * a.m := by
    intro α a
    unfold Arr2.ravel
    rw [List.length_flatMap]
    simp
  have hne : ∃ mx, npMax z.ravel = .ok mx := by
    have := hlen z
    cases hr : z.ravel with
    | nil => rw [hr, List.length_nil] at this; omega
    | cons x xs => exact ⟨_, rfl⟩
  obtain ⟨mx, hmx⟩ := hne
  have hs : ∀ r : ℝ × ℝ → ℝ, splineWidth ext z r = .error .valueError := by
    intro r
    unfold splineWidth
    rw [hmx]
    simp only [bind, Except.bind]
    rw [if_pos]
    rw [List.length_mergeSort, List.length_zip, List.length_map, List.length_map, hlen, hlen]
    have : (lagMat z.n z.m).n = z.n := rfl
    have h' : (lagMat z.n z.m).m = z.m := rfl
    rw [this, h', min_self]
    exact Nat.div_eq_of_lt h
  exact ⟨hs _, hs _⟩

private theorem ravel_length {α : Type*} (a : Arr2 α) : a.ravel.length = a.n * a.m := by
  unfold Arr2.ravel
  rw [List.length_flatMap]
  simp

private theorem zip_ravel {α β : Type*} {a : Arr2 α} {b : Arr2 β} (hn : b.n = a.n) (hm : b.m = a.m) {x : α × β}
    (h : x ∈ List.zip a.ravel b.ravel) : ∃ i < a.n, ∃ j < a.m, x = (a.get i j, b.get i j) := by
  obtain ⟨an, am, ag⟩ := a
  obtain ⟨bn, bm, bg⟩ := b
  simp only at hn hm
  subst hn hm
  have hz : List.zip (Arr2.mk bn bm ag).ravel (Arr2.mk bn bm bg).ravel = (Arr2.mk bn bm fun i j => (ag i j, bg i j)).ravel := by
    unfold Arr2.ravel
    simp only
    induction List.range bn with
    | nil => rfl
    | cons r rs ih =>
      simp only [List.flatMap_cons]
      rw [List.zip_append (by simp), ih, List.zip_map']
  rw [hz] at h
  obtain ⟨i, hi, j, hj, hx⟩ := mem_ravel.1 h
  exact ⟨i, hi, j, hj, hx.symm⟩

private theorem spline_value (ext : WidthExt) (z : Arr2 ℝ) (h100 : 100 ≤ z.n * z.m) (mx : ℝ) (hmx : npMax z.ravel = .ok mx) (h0 : mx ≠ 0)
    (radius : ℝ × ℝ → ℝ) (f : ℝ → ℝ) (hf : ∀ i < z.n, ∀ j < z.m, radius (lagOf z.n z.m i j) = f (z.get i j / mx))
    (hspl : ∀ pts knots, (∀ p ∈ pts, p.2 = f p.1) → ext.spline pts knots (Real.exp (-1)) = f (Real.exp (-1))) :
    splineWidth ext z radius = .ok (some ⟨f (Real.exp (-1)) / Real.sqrt 2, f (Real.exp (-1)) / Real.sqrt 2, 0, 0⟩) := by
  unfold splineWidth
  rw [hmx]
  simp only [bind, Except.bind, pure, Except.pure]
  have hl : ((List.zip (z.ravel.map (· / mx)) ((lagMat z.n z.m).ravel.map radius)).mergeSort (fun a b => decide (a.1 ≤ b.1))).length =
      z.n * z.m := by
    rw [List.length_mergeSort, List.length_zip, List.length_map, List.length_map, ravel_length, ravel_length]
    have : (lagMat z.n z.m).n = z.n := rfl
    have h' : (lagMat z.n z.m).m = z.m := rfl
    rw [this, h', min_self]
  rw [if_neg, if_neg h0, hspl]
  · intro p hp
    have hp := (List.mergeSort_perm _ _).mem_iff.1 hp
    rw [List.zip_map] at hp
    obtain ⟨x, hx, rfl⟩ := List.mem_map.1 hp
    obtain ⟨i, hi, j, hj, rfl⟩ := zip_ravel (a := z) (b := lagMat z.n z.m) rfl rfl hx
    simp only [Prod.map]
    rw [C92_lags z.n z.m i j hi hj, hf i hi j hj]
  · rw [hl]
    have := Nat.div_le_div_right (c := 100) h100
    omega

/-- **C92 (interpolation).** On an image of 100 or more pixels whose normalised values are a function of the distance from lag 0, and
with a spline that reproduces the inverse of that function, the `interpolate` method finds the distance at which the value is 1/e; its
error is 0.  For a round Gaussian that is √2 times the standard deviation, and `xinterpolate` finds the same when the fitted Gaussian is
round. -/
theorem C92_interpolate (ext : WidthExt) (img noise : Arr2 ℝ) (h100 : 100 ≤ img.n * img.m) (mx : ℝ)
    (hmx : npMax (subImage img noise).ravel = .ok mx) (h0 : mx ≠ 0) (f : ℝ → ℝ)
    (hf : ∀ i < img.n, ∀ j < img.m, Real.sqrt ((lagOf img.n img.m i j).1 ^ 2 + (lagOf img.n img.m i j).2 ^ 2) =
      f ((img.get i j - noise.get i j) / mx))
    (hspl : ∀ pts knots, (∀ p ∈ pts, p.2 = f p.1) → ext.spline pts knots (Real.exp (-1)) = f (Real.exp (-1)))
    (hpos : 0 < f (Real.exp (-1))) (beam cdelt : Option SQ) :
    widthEstimate2D ext [img] noise .interpolate false beam cdelt = .ok [(some (f (Real.exp (-1))), some 0)] ∧
    ((ext.gauss (subImage img noise)).sx = (ext.gauss (subImage img noise)).sy → 0 < (ext.gauss (subImage img noise)).sx →
      widthEstimate2D ext [img] noise .xinterpolate false beam cdelt = .ok [(some (f (Real.exp (-1))), some 0)]) := by
  have hw : ∀ v : ℝ, 0 < v → (widthOf ⟨v / Real.sqrt 2, v / Real.sqrt 2, 0, 0⟩) = (v, some 0) := by
    intro v hv
    have h2 : Real.sqrt ((v / Real.sqrt 2) ^ 2 + (v / Real.sqrt 2) ^ 2) = v := by
      rw [div_pow, Real.sq_sqrt (by norm_num), add_halves, Real.sqrt_sq hv.le]
    unfold widthOf
    simp only [h2, mul_zero]
    simp [divO, hv.ne']
  constructor
  · have := spline_value ext (subImage img noise) h100 mx hmx h0 lagRadius f (fun i hi j hj => hf i hi j hj) hspl
    unfold widthEstimate2D
    simp only [List.mapM_cons, List.mapM_nil, imageWidths, bind, Except.bind, pure, Except.pure, this, finishWidths, List.map_cons,
      List.map_nil, Bool.false_eq_true, if_false, id, hw _ hpos]
  · intro hxy hx
    have := spline_value ext (subImage img noise) h100 mx hmx h0 (stretchedRadius (ext.gauss (subImage img noise))) f
      (fun i hi j hj => by
        have h1 : stretchedRadius (ext.gauss (subImage img noise)) (lagOf (subImage img noise).n (subImage img noise).m i j) =
            Real.sqrt ((lagOf img.n img.m i j).1 ^ 2 + (lagOf img.n img.m i j).2 ^ 2) := by
          unfold stretchedRadius
          simp only
          rw [hxy, div_self (by rw [← hxy]; exact hx.ne')]
          congr 1
          have hcs := Real.sin_sq_add_cos_sq (ext.gauss (subImage img noise)).theta
          set t := (ext.gauss (subImage img noise)).theta
          have e : lagOf (subImage img noise).n (subImage img noise).m i j = lagOf img.n img.m i j := rfl
          rw [e, show ((lagOf img.n img.m i j).1 * Real.cos t + (lagOf img.n img.m i j).2 * Real.sin t) ^ 2 +
            (-(lagOf img.n img.m i j).1 * Real.sin t + (lagOf img.n img.m i j).2 * Real.cos t) ^ 2 * 1 ^ 2 =
            ((lagOf img.n img.m i j).1 ^ 2 + (lagOf img.n img.m i j).2 ^ 2) * (Real.sin t ^ 2 + Real.cos t ^ 2) by ring, hcs, mul_one]
        rw [h1]; exact hf i hi j hj) hspl
    unfold widthEstimate2D
    simp only [List.mapM_cons, List.mapM_nil, imageWidths, bind, Except.bind, pure, Except.pure, this, finishWidths, List.map_cons,
      List.map_nil, Bool.false_eq_true, if_false, id, hw _ hpos]

/-- The function of the last theorem for a round Gaussian: the distance is `s √(-2 log z)`, and at 1/e it is `√2 s`. -/
theorem C92_interpolate_gauss (amp s th : ℝ) (ha : 0 < amp) (hs : 0 < s) (p : ℝ × ℝ) :
    Real.sqrt (p.1 ^ 2 + p.2 ^ 2) = s * Real.sqrt (-2 * Real.log (amp * ellGauss s s th p / amp)) ∧
      s * Real.sqrt (-2 * Real.log (Real.exp (-1))) = Real.sqrt 2 * s := by
  constructor
  · have hcs := Real.sin_sq_add_cos_sq th
    rw [mul_div_cancel_left₀ _ ha.ne']
    unfold ellGauss
    rw [Real.log_exp, ← add_div, show (p.1 * Real.cos th + p.2 * Real.sin th) ^ 2 + (-p.1 * Real.sin th + p.2 * Real.cos th) ^ 2 =
      (p.1 ^ 2 + p.2 ^ 2) * (Real.sin th ^ 2 + Real.cos th ^ 2) by ring, hcs, mul_one]
    rw [show -2 * -((p.1 ^ 2 + p.2 ^ 2) / (2 * s ^ 2)) = (p.1 ^ 2 + p.2 ^ 2) / s ^ 2 by field_simp, Real.sqrt_div (by positivity),
      Real.sqrt_sq hs.le]
    field_simp
  · rw [Real.log_exp]
    norm_num
    ring

/-- Non-vacuity: a round Gaussian on 10 by 12 pixels and an exact interpolation. -/
example : ∃ (ext : WidthExt) (img noise : Arr2 ℝ) (f : ℝ → ℝ), 100 ≤ img.n * img.m ∧ npMax (subImage img noise).ravel = .ok 3 ∧
    (∀ i < img.n, ∀ j < img.m, Real.sqrt ((lagOf img.n img.m i j).1 ^ 2 + (lagOf img.n img.m i j).2 ^ 2) =
      f ((img.get i j - noise.get i j) / 3)) ∧
    (∀ pts knots, (∀ p ∈ pts, p.2 = f p.1) → ext.spline pts knots (Real.exp (-1)) = f (Real.exp (-1))) ∧ 0 < f (Real.exp (-1)) := by
  refine ⟨⟨fun _ => [], fun m => m, fun _ => (0, 0), fun _ => ⟨2, 2, 0, 0, 0, 0⟩, fun _ _ x => 2 * Real.sqrt (-2 * Real.log x)⟩,
    ⟨10, 12, fun i j => 3 * ellGauss 2 2 0 (lagOf 10 12 i j)⟩, ⟨10, 12, fun _ _ => 0⟩, fun x => 2 * Real.sqrt (-2 * Real.log x), by norm_num,
    ?_, ?_, fun _ _ _ => rfl, ?_⟩
  · refine npMax_eq (mem_ravel.2 ⟨5, by show (5 : ℕ) < 10; norm_num, 6, by show (6 : ℕ) < 12; norm_num, ?_⟩) ?_
    · show 3 * ellGauss 2 2 0 (lagOf 10 12 5 6) - 0 = 3
      have : lagOf 10 12 5 6 = (0, 0) := lag_zero 10 12
      rw [this, ell_origin]; norm_num
    · intro y hy
      obtain ⟨i, hi, j, hj, rfl⟩ := mem_ravel.1 hy
      show 3 * ellGauss 2 2 0 (lagOf 10 12 i j) - 0 ≤ 3
      linarith [ell_le 2 2 0 (lagOf 10 12 i j)]
  · intro i _ j _
    simp only [sub_zero]
    exact (C92_interpolate_gauss 3 2 0 (by norm_num) (by norm_num) _).1
  · have := (C92_interpolate_gauss 3 2 0 (by norm_num) (by norm_num) (0, 0)).2
    simp only
    rw [this]
    positivity

/-- **C92 (stretched radius, violation).** The `xinterpolate` method multiplies where it has to divide by the aspect ratio: two places
on the same contour of the fitted Gaussian, at the ends of its two axes, get different radii unless it is round. -/
theorem C92_stretch_violated (amp : ℝ) (g : Gauss2D) (hx : 0 < g.sx) (hy : 0 < g.sy) (hxy : g.sx ≠ g.sy) :
    ∃ p p' : ℝ × ℝ, gaussSurface amp g p = gaussSurface amp g p' ∧ stretchedRadius g p ≠ stretchedRadius g p' := by
  have hcs := Real.sin_sq_add_cos_sq g.theta
  refine ⟨(g.sx * Real.cos g.theta, g.sx * Real.sin g.theta), (-(g.sy * Real.sin g.theta), g.sy * Real.cos g.theta), ?_, ?_⟩
  · rw [surface_eq, surface_eq]
    unfold ellGauss
    congr 4
    simp only
    rw [show g.sx * Real.cos g.theta * Real.cos g.theta + g.sx * Real.sin g.theta * Real.sin g.theta =
        g.sx * (Real.sin g.theta ^ 2 + Real.cos g.theta ^ 2) by ring,
      show -(g.sx * Real.cos g.theta) * Real.sin g.theta + g.sx * Real.sin g.theta * Real.cos g.theta = 0 by ring,
      show -(g.sy * Real.sin g.theta) * Real.cos g.theta + g.sy * Real.cos g.theta * Real.sin g.theta = 0 by ring,
      show - -(g.sy * Real.sin g.theta) * Real.sin g.theta + g.sy * Real.cos g.theta * Real.cos g.theta =
        g.sy * (Real.sin g.theta ^ 2 + Real.cos g.theta ^ 2) by ring, hcs]
    field_simp
    ring
  · unfold stretchedRadius
    simp only
    rw [show g.sx * Real.cos g.theta * Real.cos g.theta + g.sx * Real.sin g.theta * Real.sin g.theta =
        g.sx * (Real.sin g.theta ^ 2 + Real.cos g.theta ^ 2) by ring,
      show -(g.sx * Real.cos g.theta) * Real.sin g.theta + g.sx * Real.sin g.theta * Real.cos g.theta = 0 by ring,
      show -(g.sy * Real.sin g.theta) * Real.cos g.theta + g.sy * Real.cos g.theta * Real.sin g.theta = 0 by ring,
      show - -(g.sy * Real.sin g.theta) * Real.sin g.theta + g.sy * Real.cos g.theta * Real.cos g.theta =
        g.sy * (Real.sin g.theta ^ 2 + Real.cos g.theta ^ 2) by ring, hcs]
    intro h
    rw [Real.sqrt_inj (by positivity) (by positivity)] at h
    have h1 : g.sx ^ 2 * g.sx ^ 2 = g.sy ^ 2 * g.sy ^ 2 := by
      field_simp at h
      nlinarith
    have h2 : g.sx ^ 2 = g.sy ^ 2 := by
      rcases mul_self_eq_mul_self_iff.1 h1 with h | h
      · exact h
      · nlinarith [sq_pos_of_pos hx, sq_pos_of_pos hy]
    exact hxy ((sq_eq_sq₀ hx.le hy.le).1 h2)

/-- **C92 (stretched radius).** For a round Gaussian the stretched radius is the radius, and it depends on the value only. Missing:
Gaussians that are not round (`C92_stretch_violated`). -/
theorem C92_stretch_partial (amp : ℝ) (ha : 0 < amp) (g : Gauss2D) (hx : 0 < g.sx) (hxy : g.sx = g.sy) (p p' : ℝ × ℝ) :
    stretchedRadius g p = Real.sqrt (p.1 ^ 2 + p.2 ^ 2) ∧
      (gaussSurface amp g p = gaussSurface amp g p' ↔ stretchedRadius g p = stretchedRadius g p') := by
  have hcs := Real.sin_sq_add_cos_sq g.theta
  have hr : ∀ p : ℝ × ℝ, stretchedRadius g p = Real.sqrt (p.1 ^ 2 + p.2 ^ 2) := by
    intro p
    unfold stretchedRadius
    simp only
    rw [hxy, div_self (by rw [← hxy]; exact hx.ne')]
    congr 1
    rw [show (p.1 * Real.cos g.theta + p.2 * Real.sin g.theta) ^ 2 + (-p.1 * Real.sin g.theta + p.2 * Real.cos g.theta) ^ 2 * 1 ^ 2 =
      (p.1 ^ 2 + p.2 ^ 2) * (Real.sin g.theta ^ 2 + Real.cos g.theta ^ 2) by ring, hcs, mul_one]
  have he : ∀ p : ℝ × ℝ, ellGauss g.sx g.sy g.theta p = Real.exp (-((p.1 ^ 2 + p.2 ^ 2) / (2 * g.sx ^ 2))) := by
    intro p
    unfold ellGauss
    rw [← hxy, ← add_div, show (p.1 * Real.cos g.theta + p.2 * Real.sin g.theta) ^ 2 +
      (-p.1 * Real.sin g.theta + p.2 * Real.cos g.theta) ^ 2 = (p.1 ^ 2 + p.2 ^ 2) * (Real.sin g.theta ^ 2 + Real.cos g.theta ^ 2) by ring,
      hcs, mul_one]
  refine ⟨hr p, ?_⟩
  rw [surface_eq, surface_eq, he, he, hr, hr, add_left_inj, mul_right_inj' ha.ne', Real.exp_eq_exp, neg_inj,
    div_left_inj' (by positivity), Real.sqrt_inj (by positivity) (by positivity)]

/-! ### The whole method -/

private theorem acf_eq (cube : Arr3 (Option ℝ)) (st : PcaState) (q r c : ℕ) (hr : r < cube.m) (hc : c < cube.p) :
    (acorImage (eigImage st.meanSub cube (fun a => st.eigvecs a q))).get r c = compAcf cube st q r c := by
  rw [C62_image_partial _ _ _ (show r < cube.m from hr) (show c < cube.p from hc)]
  rfl

private theorem meanAcf_eq (cube : Arr3 (Option ℝ)) (st : PcaState) (ix : List ℕ) (r c : ℕ) (hr : r < cube.m) (hc : c < cube.p) :
    Spec.meanAcf cube st ix r c = meanCompAcf cube st ix r c := by
  unfold Spec.meanAcf meanCompAcf
  congr 2
  exact List.map_congr_left fun q _ => acf_eq cube st q r c hr hc

private theorem acors_range (cube : Arr3 (Option ℝ)) (st : PcaState) (h2 : 2 ≤ st.nEigs) :
    autocorrImages ((List.range st.nEigs).map fun q => eigImage st.meanSub cube (fun a => st.eigvecs a q)) =
      .ok ((List.range st.nEigs).map fun q => acorImage (eigImage st.meanSub cube (fun a => st.eigvecs a q))) := by
  obtain ⟨k, hk⟩ : ∃ k, st.nEigs = k + 2 := ⟨st.nEigs - 2, by omega⟩
  rw [hk, List.range_succ_eq_map, List.range_succ_eq_map]
  simp only [List.map_cons, List.map_map, autocorrImages]
  rfl

/-- The unnormalised image of component `q`. -/
private noncomputable def lifted (eps : ℝ) (cube : Arr3 (Option ℝ)) (st : PcaState) (q r c : ℕ) : ℝ :=
  compAcf cube st q r c + (lastValid eps st.eigvals 10).length / 10 * meanCompAcf cube st (lastValid eps st.eigvals 10) r c

private theorem run_ok (ext : WidthExt) (radio : Option (Py (ℝ × ℝ × ℝ))) (hdr : Option BeamHeader) (cdelt : Option SQ) (eps : ℝ)
    (cube : Arr3 (Option ℝ)) (st : PcaState) (h2 : 2 ≤ st.nEigs) (hk : st.nEigs ≤ st.eigvals.length)
    (hN : 2 ≤ (lastValid eps st.eigvals 10).length) :
    ∃ imgs : List (Arr2 ℝ), ∃ noise : Arr2 ℝ, imgs.length = st.nEigs ∧ imgs ≠ [] ∧
      (∀ (meth : Width2D) (beam dist : Option SQ), findSpatialWidths ext radio hdr cdelt eps cube st meth false beam dist =
        widthEstimate2D ext imgs noise meth false beam cdelt) ∧
      (∀ (meth : Width2D) (b : SQ) (dist : Option SQ), findSpatialWidths ext radio hdr cdelt eps cube st meth true (some b) dist =
        widthEstimate2D ext imgs noise meth true (some b) cdelt) ∧
      ∀ q < st.nEigs, ∃ z, imgs[q]? = some z ∧ z.n = cube.m ∧ z.m = cube.p ∧
        ∀ r < cube.m, ∀ c < cube.p, (subImage z noise).get r c = lifted eps cube st q r c := by
  obtain ⟨noise, hno, hv⟩ := C34_too_few eps cube st 10 (by norm_num) hN
  have hno' : noiseAcf eps cube st (-10) = .ok noise := hno
  have hix : eigIndices eps st.eigvals (st.nEigs : ℤ) = .ok (List.range st.nEigs) := by
    unfold eigIndices
    rw [if_pos (by omega), if_neg (by simp; omega)]
    simp
  refine ⟨(List.range st.nEigs).map fun q => acorImage (eigImage st.meanSub cube (fun a => st.eigvecs a q)), noise, by simp, ?_, ?_, ?_, ?_⟩
  · intro h
    have := congrArg List.length h
    simp at this
    omega
  · intro meth beam dist
    unfold findSpatialWidths beamFor
    simp only [Bool.false_eq_true, if_false, bind, Except.bind, pure, Except.pure]
    rw [hix]
    simp only
    rw [acors_range cube st h2]
    simp only
    rw [hno']
  · intro meth b dist
    unfold findSpatialWidths beamFor
    simp only [if_true, bind, Except.bind, pure, Except.pure]
    rw [hix]
    simp only
    rw [acors_range cube st h2]
    simp only
    rw [hno']
  · intro q hq
    refine ⟨_, by rw [List.getElem?_map, List.getElem?_range hq]; rfl, rfl, rfl, fun r hr c hc => ?_⟩
    show (acorImage _).get r c - noise.get r c = _
    rw [hv, acf_eq cube st q r c hr hc, meanAcf_eq cube st _ r c hr hc]
    unfold lifted
    push_cast
    ring

private theorem centre_max (cube : Arr3 (Option ℝ)) (st : PcaState) (q r c : ℕ) (hr : r < cube.m) (hc : c < cube.p) :
    compAcf cube st q r c ≤ compAcf cube st q (cube.m / 2) (cube.p / 2) ∧ 0 ≤ compAcf cube st q (cube.m / 2) (cube.p / 2) := by
  have h := C62_image_shape (eigImage st.meanSub cube (fun a => st.eigvecs a q)) r c hr hc
  have e : (acorImage (eigImage st.meanSub cube (fun a => st.eigvecs a q))).get (cube.m / 2) (cube.p / 2) =
      compAcf cube st q (cube.m / 2) (cube.p / 2) := acf_eq cube st q _ _ (by omega) (by omega)
  refine ⟨?_, ?_⟩
  · rw [← acf_eq cube st q r c hr hc, ← e]; exact h.1
  · rw [← e]; exact h.2.1

private theorem mean_max (cube : Arr3 (Option ℝ)) (st : PcaState) (ix : List ℕ) (r c : ℕ) (hr : r < cube.m) (hc : c < cube.p) :
    meanCompAcf cube st ix r c ≤ meanCompAcf cube st ix (cube.m / 2) (cube.p / 2) := by
  unfold meanCompAcf
  refine div_le_div_of_nonneg_right ?_ (by positivity)
  exact List.sum_le_sum fun q _ => (centre_max cube st q r c hr hc).1

private theorem lifted_max (eps : ℝ) (cube : Arr3 (Option ℝ)) (st : PcaState) (q r c : ℕ) (hr : r < cube.m) (hc : c < cube.p) :
    lifted eps cube st q r c ≤ lifted eps cube st q (cube.m / 2) (cube.p / 2) := by
  unfold lifted
  have h1 := (centre_max cube st q r c hr hc).1
  have h2 := mean_max cube st (lastValid eps st.eigvals 10) r c hr hc
  have h3 : (0 : ℝ) ≤ (lastValid eps st.eigvals 10).length / 10 := by positivity
  nlinarith

private theorem deconv_symm (t y x : ℝ) : deconvolved t y x = deconvolved t x y := by
  unfold deconvolved; rw [add_comm]

/-- What the contour method gives for one image. -/
private theorem contour_one (ext : WidthExt) (hpix : LooksAtPixels ext) (eps : ℝ) (cube : Arr3 (Option ℝ)) (hm : 0 < cube.m) (hp : 0 < cube.p)
    (st : PcaState) (q : ℕ) (z noise : Arr2 ℝ) (hzn : z.n = cube.m) (hzm : z.m = cube.p)
    (hz : ∀ r < cube.m, ∀ c < cube.p, (subImage z noise).get r c = lifted eps cube st q r c)
    (img : Arr2 (Option ℝ)) (hin : img.n = cube.m) (him : img.m = cube.p)
    (himg : ∀ r < cube.m, ∀ c < cube.p, img.get r c = divO (some (lifted eps cube st q r c))
      (some (lifted eps cube st q (cube.m / 2) (cube.p / 2)))) :
    imageWidths ext (subImage z noise) .contour = .ok (((ext.contours img).find? (fun p => p.1)).bind fun p =>
      (fit2DEllipse ext.eig p.2.2).map fun w => ⟨w.1, w.2, (ext.boot p.2).1, (ext.boot p.2).2⟩) := by
  have hmx : npMax (subImage z noise).ravel = .ok (lifted eps cube st q (cube.m / 2) (cube.p / 2)) := by
    refine npMax_eq (mem_ravel.2 ⟨cube.m / 2, ?_, cube.p / 2, ?_, ?_⟩) ?_
    · show cube.m / 2 < z.n; omega
    · show cube.p / 2 < z.m; omega
    · exact hz _ (by omega) _ (by omega)
    · intro y hy
      obtain ⟨i, hi, j, hj, rfl⟩ := mem_ravel.1 hy
      have hi' : i < cube.m := by rw [← hzn]; exact hi
      have hj' : j < cube.p := by rw [← hzm]; exact hj
      rw [hz i hi' j hj']
      exact lifted_max eps cube st q i j hi' hj'
  unfold imageWidths
  rw [hmx]
  simp only [bind, Except.bind, pure, Except.pure]
  rw [hpix (normImage (subImage z noise) (lifted eps cube st q (cube.m / 2) (cube.p / 2))) img (hzn.trans hin.symm) (hzm.trans him.symm)]
  intro i hi j hj
  have hi' : i < cube.m := by rw [← hzn]; exact hi
  have hj' : j < cube.p := by rw [← hzm]; exact hj
  rw [himg i hi' j hj', ← hz i hi' j hj']
  rfl

/-- **C92 (contours).** `find_spatial_widths` gives one width per component.  The contour of a component is that of its
autocorrelation *plus* a tenth of the sum of those of the (up to ten) noise components, divided by the value at lag 0.  When the contour
around the origin is an ellipse with semi-axes `a`, `b`, the width is the root of their mean square, and with beam correction each axis
is first reduced by the beam; without a contour around the origin the width is NaN. Missing: the noise should be subtracted
(`C92_noise_violated`), and contours that are not ellipses. -/
theorem C92_contour_partial (ext : WidthExt) (hpix : LooksAtPixels ext) (radio : Option (Py (ℝ × ℝ × ℝ))) (hdr : Option BeamHeader)
    (eps : ℝ) (cube : Arr3 (Option ℝ)) (hm : 0 < cube.m) (hp : 0 < cube.p) (st : PcaState) (h2 : 2 ≤ st.nEigs)
    (hk : st.nEigs ≤ st.eigvals.length) (hN : 2 ≤ (lastValid eps st.eigvals 10).length) (beam dist : Option SQ) (bv db cv dc : ℝ) :
    ∃ out outb, findSpatialWidths ext radio hdr (some ⟨cv, .angle dc⟩) eps cube st .contour false beam dist = .ok out ∧
      findSpatialWidths ext radio hdr (some ⟨cv, .angle dc⟩) eps cube st .contour true (some ⟨bv, .angle db⟩) dist = .ok outb ∧
      out.length = st.nEigs ∧ outb.length = st.nEigs ∧
      ∀ q < st.nEigs, ∀ img : Arr2 (Option ℝ), img.n = cube.m → img.m = cube.p →
        (∀ r < cube.m, ∀ c < cube.p, img.get r c = divO
          (some (compAcf cube st q r c + ((lastValid eps st.eigvals 10).map fun k => compAcf cube st k r c).sum / 10))
          (some (compAcf cube st q (cube.m / 2) (cube.p / 2) +
            ((lastValid eps st.eigvals 10).map fun k => compAcf cube st k (cube.m / 2) (cube.p / 2)).sum / 10))) →
        (∀ (before after : List (Bool × Σ n : ℕ, Fin n → ℝ × ℝ)) (n : ℕ) (pts : Fin n → ℝ × ℝ) (x0 y0 a b th : ℝ),
          ext.contours img = before ++ (true, ⟨n, pts⟩) :: after → (∀ p ∈ before, p.1 = false) → 0 < a → 0 < b →
          (∀ i, OnEllipse x0 y0 a b th (pts i)) → 5 ≤ (Finset.univ.image pts).card →
          Eigenbasis (reducedScatter pts) (ext.eig (reducedScatter pts)) →
          (∃ e, out[q]? = some (some (Real.sqrt ((a ^ 2 + b ^ 2) / 2)), e)) ∧
          ∃ e, outb[q]? = some (some (deconvolved (beamShift (bv * db) (cv * dc)) (a / Real.sqrt 2) (b / Real.sqrt 2)), e)) ∧
        ((∀ p ∈ ext.contours img, p.1 = false) → out[q]? = some (none, none) ∧ outb[q]? = some (none, none)) := by
  obtain ⟨imgs, noise, hlen, hne, hrun, hrunb, himgs⟩ := run_ok ext radio hdr (some ⟨cv, .angle dc⟩) eps cube st h2 hk hN
  have hlift : ∀ q r c, lifted eps cube st q r c = compAcf cube st q r c +
      ((lastValid eps st.eigvals 10).map fun k => compAcf cube st k r c).sum / 10 := by
    intro q r c
    unfold lifted meanCompAcf
    have : ((lastValid eps st.eigvals 10).length : ℝ) ≠ 0 := by
      have : 0 < (lastValid eps st.eigvals 10).length := by omega
      positivity
    field_simp
  have hone : ∀ z ∈ imgs, ∃ w, imageWidths ext (subImage z noise) .contour = .ok w := by
    intro z hz
    obtain ⟨q, hq⟩ := List.mem_iff_getElem?.1 hz
    have hq' : q < st.nEigs := by rw [← hlen]; exact (List.getElem?_eq_some_iff.1 hq).1
    obtain ⟨z', hz', hzn, hzm, hg⟩ := himgs q hq'
    rw [hq] at hz'
    cases hz'
    exact ⟨_, contour_one ext hpix eps cube hm hp st q z noise hzn hzm hg ⟨cube.m, cube.p, fun r c => divO (some (lifted eps cube st q r c))
      (some (lifted eps cube st q (cube.m / 2) (cube.p / 2)))⟩ rfl rfl fun _ _ _ _ => rfl⟩
  set g : Arr2 ℝ → Option AxisWidths := fun z => match imageWidths ext (subImage z noise) .contour with
    | .ok w => w
    | .error _ => none with hg
  have hws : imgs.mapM (fun z => imageWidths ext (subImage z noise) .contour) = .ok (imgs.map g) := by
    apply mapM_all_ok
    intro z hz
    obtain ⟨w, hw⟩ := hone z hz
    simp only [hg, hw]
  have hest : ∀ brunt beam cdelt, widthEstimate2D ext imgs noise .contour brunt beam cdelt = finishWidths brunt beam cdelt (imgs.map g) := by
    intro brunt beam cdelt
    unfold widthEstimate2D
    cases imgs with
    | nil => exact absurd rfl hne
    | cons a as =>
      simp only
      rw [hws]
      rfl
  obtain ⟨outb, hb, hbl, hbv⟩ := C77_value bv cv db dc (imgs.map g)
  refine ⟨_, outb, by rw [hrun, hest]; rfl, by rw [hrunb, hest]; exact hb, by simp [hlen], by rw [hbl]; simp [hlen], ?_⟩
  intro q hq img hin him himg
  obtain ⟨z, hz, hzn, hzm, hgz⟩ := himgs q hq
  have hw := contour_one ext hpix eps cube hm hp st q z noise hzn hzm hgz img hin him (by
    intro r hr c hc
    rw [himg r hr c hc, hlift, hlift])
  have hgq : (imgs.map g)[q]? = some (((ext.contours img).find? (fun p => p.1)).bind fun p =>
      (fit2DEllipse ext.eig p.2.2).map fun w => ⟨w.1, w.2, (ext.boot p.2).1, (ext.boot p.2).2⟩) := by
    rw [List.getElem?_map, hz]
    simp only [hg, Option.map_some, hw]
  constructor
  · intro before after n pts x0 y0 a b th hcon hbef ha hb0 hon h5 heig
    obtain ⟨P, hP, -, -, hab, -⟩ := C90_exact_partial ext.eig pts x0 y0 a b th ha hb0 hon h5 heig
    have hfind : (ext.contours img).find? (fun p => p.1) = some (true, ⟨n, pts⟩) := by
      rw [hcon, List.find?_append, List.find?_eq_none.2 (fun c hc => by simp [hbef c hc])]
      simp
    have hfit : fit2DEllipse ext.eig pts = some (P.b / Real.sqrt 2, P.a / Real.sqrt 2) := by
      unfold fit2DEllipse; rw [hP]; rfl
    rw [hfind] at hgq
    simp only [Option.bind_some, hfit, Option.map_some] at hgq
    have hval : ∀ t, deconvolved t (P.b / Real.sqrt 2) (P.a / Real.sqrt 2) = deconvolved t (a / Real.sqrt 2) (b / Real.sqrt 2) := by
      intro t
      rcases hab with ⟨h1, h2⟩ | ⟨h1, h2⟩
      · rw [h1, h2, deconv_symm]
      · rw [h1, h2]
    constructor
    · refine ⟨(widthOf ⟨P.b / Real.sqrt 2, P.a / Real.sqrt 2, (ext.boot ⟨n, pts⟩).1, (ext.boot ⟨n, pts⟩).2⟩).2, ?_⟩
      rw [List.getElem?_map, hgq]
      simp only [Option.map_some, id]
      have : (widthOf ⟨P.b / Real.sqrt 2, P.a / Real.sqrt 2, (ext.boot ⟨n, pts⟩).1, (ext.boot ⟨n, pts⟩).2⟩).1 =
          Real.sqrt ((a ^ 2 + b ^ 2) / 2) := by
        have h0 := hval 0
        unfold deconvolved at h0
        simp only [sub_zero] at h0
        show Real.sqrt ((P.b / Real.sqrt 2) ^ 2 + (P.a / Real.sqrt 2) ^ 2) = _
        rw [h0]
        congr 1
        rw [div_pow, div_pow, Real.sq_sqrt (by norm_num)]
        ring
      rw [this]
    · obtain ⟨v, hv, hv1, -⟩ := hbv q _ hgq
      refine ⟨v.2, ?_⟩
      rw [hv]
      simp only [Option.map_some] at hv1
      rw [hval] at hv1
      rw [← hv1]
  · intro hno
    have hfind : (ext.contours img).find? (fun p => p.1) = none := List.find?_eq_none.2 (fun c hc => by simp [hno c hc])
    rw [hfind] at hgq
    simp only [Option.bind_none] at hgq
    constructor
    · rw [List.getElem?_map, hgq]; rfl
    · obtain ⟨v, hv, hv1, hv2⟩ := hbv q _ hgq
      rw [hv]
      have e1 : v.1 = none := by rw [hv1]; rfl
      have e2 : v.2 = none := hv2 rfl
      obtain ⟨v1, v2⟩ := v
      simp only at e1 e2
      rw [e1, e2]

/-- **C92 (noise, violation).** The noise autocorrelation is added, not subtracted: where it has fallen to zero (white noise) the
normalised autocorrelation of a component, measured as in the theorem above, is smaller than that of the component cleaned of noise, so
the 1/e contour is drawn inside the right one. -/
theorem C92_noise_violated (eps : ℝ) (cube : Arr3 (Option ℝ)) (st : PcaState) (hN : (lastValid eps st.eigvals 10).length = 10) (q r c : ℕ)
    (h0 : ((lastValid eps st.eigvals 10).map fun k => compAcf cube st k r c).sum = 0) (hS : 0 < compAcf cube st q r c)
    (hpos : 0 < meanCompAcf cube st (lastValid eps st.eigvals 10) (cube.m / 2) (cube.p / 2))
    (hclean : meanCompAcf cube st (lastValid eps st.eigvals 10) (cube.m / 2) (cube.p / 2) <
      compAcf cube st q (cube.m / 2) (cube.p / 2)) :
    (compAcf cube st q r c + ((lastValid eps st.eigvals 10).map fun k => compAcf cube st k r c).sum / 10) /
        (compAcf cube st q (cube.m / 2) (cube.p / 2) +
          ((lastValid eps st.eigvals 10).map fun k => compAcf cube st k (cube.m / 2) (cube.p / 2)).sum / 10) <
      (compAcf cube st q r c - meanCompAcf cube st (lastValid eps st.eigvals 10) r c) /
        (compAcf cube st q (cube.m / 2) (cube.p / 2) - meanCompAcf cube st (lastValid eps st.eigvals 10) (cube.m / 2) (cube.p / 2)) := by
  have e : ((lastValid eps st.eigvals 10).map fun k => compAcf cube st k (cube.m / 2) (cube.p / 2)).sum / 10 =
      meanCompAcf cube st (lastValid eps st.eigvals 10) (cube.m / 2) (cube.p / 2) := by
    unfold meanCompAcf; rw [hN]; norm_num
  have e' : meanCompAcf cube st (lastValid eps st.eigvals 10) r c = 0 := by
    unfold meanCompAcf; rw [h0, zero_div]
  rw [e, e', h0, zero_div, add_zero, sub_zero]
  exact div_lt_div_of_pos_left hS (by linarith) (by linarith)

/-! ### The noise components -/

private theorem filter_range_down (N : ℕ) (p : ℕ → Bool) (hp : ∀ i j, i ≤ j → j < N → p j = true → p i = true) :
    (List.range N).filter p = List.range (((List.range N).filter p).length) := by
  induction N with
  | zero => rfl
  | succ N ih =>
    have ih := ih fun i j hij hj => hp i j hij (by omega)
    rw [List.range_succ, List.filter_append]
    by_cases h : p N = true
    · have hall : (List.range N).filter p = List.range N := by
        rw [List.filter_eq_self]
        intro a ha
        exact hp a N (List.mem_range.1 ha).le (by omega) h
      rw [hall]
      simp [h, List.range_succ]
    · simp only [List.filter_cons, h, List.filter_nil, Bool.false_eq_true, if_false, List.append_nil]
      exact ih

private theorem lastValid_sorted (eps : ℝ) (e : List ℝ) (hs : e.Pairwise (fun a b => b ≤ a)) (k : ℕ) :
    ∃ v, v = e.countP (fun x => decide (eps ≤ x)) ∧ ∀ q, q ∈ lastValid eps e k ↔ v - k ≤ q ∧ q < v := by
  have hd := filter_range_down e.length (fun q => decide (eps ≤ e.getD q 0)) (by
    intro i j hij hj h
    simp only [decide_eq_true_eq] at h ⊢
    rcases hij.eq_or_lt with rfl | hlt
    · exact h
    · have hi : i < e.length := by omega
      have := List.pairwise_iff_getElem.1 hs i j hi hj hlt
      rw [List.getD_eq_getElem _ _ hj] at h
      rw [List.getD_eq_getElem _ _ hi]
      linarith)
  have hlen : ((List.range e.length).filter (fun q => decide (eps ≤ e.getD q 0))).length = e.countP (fun x => decide (eps ≤ x)) := by
    have he : e = (List.range e.length).map (fun q => e.getD q 0) := by
      apply List.ext_getElem?
      intro i
      rw [List.getElem?_map]
      by_cases h : i < e.length
      · rw [List.getElem?_range h, List.getElem?_eq_getElem h, Option.map_some, List.getD_eq_getElem _ _ h]
      · rw [List.getElem?_eq_none (by omega), List.getElem?_eq_none (by simpa using h)]; rfl
    conv_rhs => rw [he, List.countP_map]
    rw [List.countP_eq_length_filter]
    rfl
  refine ⟨_, rfl, fun q => ?_⟩
  unfold lastValid
  rw [hd, hlen, List.take_reverse, List.reverse_reverse, List.length_range]
  generalize e.countP (fun x => decide (eps ≤ x)) = v
  rw [List.mem_iff_getElem?]
  constructor
  · rintro ⟨i, hi⟩
    rw [List.getElem?_drop] at hi
    obtain ⟨h1, h2⟩ := List.getElem?_eq_some_iff.1 hi
    rw [List.getElem_range] at h2
    rw [List.length_range] at h1
    omega
  · rintro ⟨h1, h2⟩
    refine ⟨q - (v - k), ?_⟩
    rw [List.getElem?_drop, show v - k + (q - (v - k)) = q by omega, List.getElem?_range h2]

/-- **C92 (noise components).** The components taken as noise are the last ten among those whose eigenvalue is at least the rounding
unit of the data. -/
theorem C92_noise_set (eps : ℝ) (n : ℕ) (lam : ℕ → ℝ) (V : ℕ → ℕ → ℝ) (ord : ℕ → ℕ) (ms : Bool) (arg : NEigsArg) (me : Option ℝ)
    (cm : CutMethod) (st : PcaState) (h : computePca n lam V ord ms arg me cm = .ok st) (q : ℕ) :
    q ∈ lastValid eps st.eigvals 10 ↔
      ((range n).filter fun k => eps ≤ lam k).card - 10 ≤ q ∧ q < ((range n).filter fun k => eps ≤ lam k).card := by
  obtain ⟨hp, hs, -⟩ := C33_sorted n lam V ord ms arg me cm st h
  obtain ⟨v, hv, hm⟩ := lastValid_sorted eps st.eigvals hs 10
  have : v = ((range n).filter fun k => eps ≤ lam k).card := by
    rw [hv, hp.countP_eq, List.countP_map, List.countP_eq_length_filter]
    rfl
  rw [hm q, this]

/-- **C92 (noise components, violation).** They are meant to lie beyond the components being measured.  With fewer than ten valid
components beyond those, some component is both measured and used as noise. -/
theorem C92_overlap_violated (eps : ℝ) (n : ℕ) (lam : ℕ → ℝ) (V : ℕ → ℕ → ℝ) (ord : ℕ → ℕ) (ms : Bool) (arg : NEigsArg) (me : Option ℝ)
    (cm : CutMethod) (st : PcaState) (h : computePca n lam V ord ms arg me cm = .ok st) (h1 : 1 ≤ st.nEigs)
    (hv : 0 < ((range n).filter fun k => eps ≤ lam k).card) :
    (∃ q < st.nEigs, q ∈ lastValid eps st.eigvals 10) ↔ ((range n).filter fun k => eps ≤ lam k).card < st.nEigs + 10 := by
  set v := ((range n).filter fun k => eps ≤ lam k).card with hvd
  constructor
  · rintro ⟨q, hq, hm⟩
    have := (C92_noise_set eps n lam V ord ms arg me cm st h q).1 hm
    rw [← hvd] at this
    omega
  · intro hlt
    refine ⟨v - 10, by omega, (C92_noise_set eps n lam V ord ms arg me cm st h _).2 ?_⟩
    rw [← hvd]
    omega

/-! ### Brightness -/

private noncomputable def scaleImg (k : ℝ) (z : Arr2 ℝ) : Arr2 ℝ := ⟨z.n, z.m, fun i j => k * z.get i j⟩

private theorem eig_scale (ms : Bool) (c : ℝ) (cube : Arr3 (Option ℝ)) (v : ℕ → ℝ) :
    eigImage ms (timesCube c cube) v = scaleImg c (eigImage ms cube v) := by
  unfold eigImage scaleImg timesCube
  congr 1
  funext r d
  simp only
  rw [mul_sum]
  apply sum_congr rfl
  intro a _
  have hs : vecNansum (cube.m * cube.p) (chanVec ⟨cube.n, cube.m, cube.p, fun v i j => (cube.get v i j).map (c * ·)⟩ a) =
      c * vecNansum (cube.m * cube.p) (chanVec cube a) := by
    unfold vecNansum chanVec
    rw [mul_sum]
    apply sum_congr rfl
    intro k _
    simp only
    cases cube.get a (k / cube.p) (k % cube.p) <;> simp
  have hc : vecCount (cube.m * cube.p) (chanVec ⟨cube.n, cube.m, cube.p, fun v i j => (cube.get v i j).map (c * ·)⟩ a) =
      vecCount (cube.m * cube.p) (chanVec cube a) := by
    unfold vecCount chanVec
    simp only [Option.isSome_map]
  rw [hs, hc]
  by_cases h0 : ((vecCount (cube.m * cube.p) (chanVec cube a) : ℕ) : ℝ) = 0
  · cases ms <;> cases cube.get a r d <;> simp [mulO, subO, divO, h0, mul_assoc]
  · cases ms <;> cases cube.get a r d <;> simp [mulO, subO, divO, h0]
    · ring
    · ring

private theorem dft2_scale (n m : ℕ) (c : ℂ) (f : ℕ → ℕ → ℂ) (k l : ℤ) : dft2 n m (fun i j => c * f i j) k l = c * dft2 n m f k l := by
  unfold dft2
  simp only [mul_sum, mul_assoc]

private theorem idft1_scale (n : ℕ) (c : ℂ) (F : ℕ → ℂ) (i : ℤ) : idft1 n (fun k => c * F k) i = c * idft1 n F i := by
  unfold idft1
  simp only [mul_sum]
  exact sum_congr rfl fun k _ => by ring

private theorem idft2_scale (n m : ℕ) (c : ℂ) (F : ℕ → ℕ → ℂ) (i j : ℤ) :
    idft2 n m (fun k l => c * F k l) i j = c * idft2 n m F i j := by
  unfold idft2
  simp only [idft1_scale]

private theorem acor_scale (c : ℝ) (img : Arr2 ℝ) : acorImage (scaleImg c img) = scaleImg (c ^ 2) (acorImage img) := by
  have hF : ∀ k l : ℤ, dft2 img.n img.m (fun i j => ((c * img.get i j : ℝ) : ℂ)) k l =
      (c : ℂ) * dft2 img.n img.m (fun i j => (img.get i j : ℂ)) k l := by
    intro k l
    rw [← dft2_scale]
    push_cast
    rfl
  unfold acorImage scaleImg Arr2.map Arr2.fftshift Arr2.roll0 Arr2.roll1
  simp only
  congr 1
  funext r d
  simp only [hF, map_mul, Complex.conj_ofReal, ← mul_sum, mul_div_assoc, ← mul_sub]
  rw [← Complex.re_ofReal_mul, ← idft2_scale]
  congr 2
  funext k l
  push_cast
  ring

private theorem acors_scale (c : ℝ) (l : List (Arr2 ℝ)) :
    autocorrImages (l.map (scaleImg c)) = (autocorrImages l).map (List.map (scaleImg (c ^ 2))) := by
  match l with
  | [] => rfl
  | [_] => rfl
  | a :: b :: t =>
    simp only [List.map_cons, autocorrImages, Except.map, acor_scale, List.map_map]
    congr 3
    exact List.map_congr_left fun x _ => acor_scale c x

private theorem npMax_scale (k : ℝ) (hk : 0 < k) (l : List ℝ) : npMax (l.map (k * ·)) = (npMax l).map (k * ·) := by
  cases h : npMax l with
  | error e =>
    cases l with
    | nil => cases h; rfl
    | cons a t => cases h
  | ok v =>
    obtain ⟨h1, h2⟩ := npMax_spec h
    refine npMax_eq (List.mem_map.2 ⟨v, h1, rfl⟩) ?_
    intro y hy
    obtain ⟨x, hx, rfl⟩ := List.mem_map.1 hy
    exact mul_le_mul_of_nonneg_left (h2 x hx) hk.le

private theorem ravel_scale (k : ℝ) (z : Arr2 ℝ) : (scaleImg k z).ravel = z.ravel.map (k * ·) := by
  unfold Arr2.ravel scaleImg
  simp only [List.map_flatMap, List.map_map]
  rfl

private theorem widths_scale (ext : WidthExt) (k : ℝ) (hk : 0 < k) (z : Arr2 ℝ) (meth : Width2D) (hm : meth = .contour ∨ meth = .interpolate) :
    imageWidths ext (scaleImg k z) meth = imageWidths ext z meth := by
  have hdiv : ∀ x mx : ℝ, divO (some (k * x)) (some (k * mx)) = divO (some x) (some mx) := by
    intro x mx
    unfold divO
    simp only [Option.bind_eq_bind, Option.bind_some, mul_eq_zero, hk.ne', false_or]
    rw [mul_div_mul_left _ _ hk.ne']
  rcases hm with rfl | rfl
  · unfold imageWidths
    rw [ravel_scale, npMax_scale k hk]
    cases npMax z.ravel with
    | error e => rfl
    | ok mx =>
      simp only [Except.map, bind, Except.bind, pure, Except.pure]
      have : normImage (scaleImg k z) (k * mx) = normImage z mx := by
        unfold normImage scaleImg
        simp only [hdiv]
      rw [this]
  · unfold imageWidths splineWidth
    rw [ravel_scale, npMax_scale k hk]
    cases npMax z.ravel with
    | error e => rfl
    | ok mx =>
      simp only [Except.map, bind, Except.bind, pure, Except.pure, List.map_map]
      have : ((fun x => x / (k * mx)) ∘ fun x => k * x) = fun x => x / mx := by
        funext x
        simp only [Function.comp]
        rw [mul_div_mul_left _ _ hk.ne']
      have e1 : (scaleImg k z).n = z.n := rfl
      have e2 : (scaleImg k z).m = z.m := rfl
      have e3 : (k * mx = 0) = (mx = 0) := by simp [hk.ne']
      rw [this, e1, e2]
      simp only [e3]

private theorem sub_scale (k : ℝ) (z noise : Arr2 ℝ) : subImage (scaleImg k z) (scaleImg k noise) = scaleImg k (subImage z noise) := by
  unfold subImage scaleImg
  simp only [mul_sub]

private theorem est_scale (ext : WidthExt) (k : ℝ) (hk : 0 < k) (imgs : List (Arr2 ℝ)) (noise : Arr2 ℝ) (meth : Width2D)
    (hm : meth = .contour ∨ meth = .interpolate) (brunt : Bool) (beam cdelt : Option SQ) :
    widthEstimate2D ext (imgs.map (scaleImg k)) (scaleImg k noise) meth brunt beam cdelt = widthEstimate2D ext imgs noise meth brunt beam cdelt := by
  have hmap : (imgs.map (scaleImg k)).mapM (fun z => imageWidths ext (subImage z (scaleImg k noise)) meth) =
      imgs.mapM (fun z => imageWidths ext (subImage z noise) meth) := by
    rw [List.mapM_map]
    congr 1
    funext z
    show imageWidths ext (subImage (scaleImg k z) (scaleImg k noise)) meth = _
    rw [sub_scale, widths_scale ext k hk _ meth hm]
  unfold widthEstimate2D
  rcases hm with rfl | rfl <;> cases imgs with
  | nil => rfl
  | cons a t =>
    simp only [List.map_cons] at hmap ⊢
    rw [hmap]

private theorem sort_scale (k : ℝ) (hk : 0 < k) (l : List ℝ) : sortDesc (l.map (k * ·)) = (sortDesc l).map (k * ·) := by
  have : Std.Total (fun a b : ℝ => b ≤ a) := ⟨fun a b => le_total b a⟩
  have : IsTrans ℝ (fun a b => b ≤ a) := ⟨fun a b c h1 h2 => le_trans h2 h1⟩
  have p1 : (sortDesc (l.map (k * ·))).Perm ((sortDesc l).map (k * ·)) :=
    (List.perm_insertionSort _ _).trans ((List.perm_insertionSort _ l).symm.map _)
  have s1 : (sortDesc (l.map (k * ·))).Pairwise (fun a b => b ≤ a) := List.pairwise_insertionSort _ _
  have s2 : ((sortDesc l).map (k * ·)).Pairwise (fun a b => b ≤ a) := by
    rw [List.pairwise_map]
    exact (List.pairwise_insertionSort (fun a b : ℝ => b ≤ a) l).imp fun h => mul_le_mul_of_nonneg_left h hk.le
  exact p1.eq_of_pairwise (fun a b _ _ h1 h2 => le_antisymm h2 h1) s1 s2

private theorem pca_fields {n : ℕ} {lam : ℕ → ℝ} {V : ℕ → ℕ → ℝ} {ord : ℕ → ℕ} {ms : Bool} {k : ℤ} {me : Option ℝ} {cm : CutMethod} {st : PcaState}
    (h : computePca n lam V ord ms (.num k) me cm = .ok st) :
    st.eigvals = sortDesc ((List.range n).map lam) ∧ st.eigvecs = (fun i j => V i (ord j)) ∧ st.meanSub = ms ∧
      (st.nEigs : ℤ) = if k = -1 then (n : ℤ) else k := by
  have hlen : (sortDesc ((List.range n).map lam)).length = n := by
    unfold sortDesc
    rw [List.length_insertionSort]; simp
  unfold computePca nEigsFor nEigsSetter at h
  simp only [bind, Except.bind, pure, Except.pure, hlen] at h
  by_cases h1 : k = -1
  · simp only [h1, if_true] at h ⊢
    by_cases h2 : n ≤ 0
    · simp [h2] at h
    · simp only [h2, if_false] at h
      cases h
      exact ⟨rfl, rfl, rfl, rfl⟩
  · simp only [h1, if_false] at h ⊢
    by_cases h2 : k < -1 ∨ (n : ℤ) < k ∨ k = 0
    · simp [h2] at h
    · simp only [h2, if_false] at h
      by_cases h3 : k.toNat ≤ 0
      · simp [h3] at h
      · simp only [h3, if_false] at h
        cases h
        refine ⟨rfl, rfl, rfl, ?_⟩
        simp only
        omega

private theorem idx_same {eps : ℝ} {e e' : List ℝ} (hl : e'.length = e.length)
    (hv : ∀ k < e.length, eps ≤ e'.getD k 0 ↔ eps ≤ e.getD k 0) (k : ℤ) : eigIndices eps e' k = eigIndices eps e k := by
  have : validEigs eps e' = validEigs eps e := by
    unfold validEigs
    rw [hl]
    refine List.filter_congr fun k hk => ?_
    rw [decide_eq_decide]
    exact hv k (List.mem_range.1 hk)
  unfold eigIndices
  rw [this, hl]

/-- **C92 (brightness).** Multiplying every value of the cube by a positive number multiplies the eigenvalues by its square and leaves
the eigenvectors; the widths by the contour and interpolation methods do not change, as long as the same eigenvalues stay above the
rounding unit of the data. Missing: eigenvalues that cross the rounding unit (`C92_faint_violated`), and the method `fit`. -/
theorem C92_brightness_partial (ext : WidthExt) (radio : Option (Py (ℝ × ℝ × ℝ))) (hdr : Option BeamHeader) (cdelt : Option SQ) (eps : ℝ)
    (cube : Arr3 (Option ℝ)) (c : ℝ) (hc : 0 < c) (n : ℕ) (lam : ℕ → ℝ) (V : ℕ → ℕ → ℝ) (ord : ℕ → ℕ) (ms : Bool) (k : ℤ) (me : Option ℝ)
    (cm : CutMethod) (st st' : PcaState) (h : computePca n lam V ord ms (.num k) me cm = .ok st)
    (h' : computePca n (fun i => c ^ 2 * lam i) V ord ms (.num k) me cm = .ok st')
    (hval : ∀ i < n, eps ≤ c ^ 2 * lam i ↔ eps ≤ lam i) (meth : Width2D) (hm : meth = .contour ∨ meth = .interpolate) (brunt : Bool)
    (beam dist : Option SQ) :
    findSpatialWidths ext radio hdr cdelt eps (timesCube c cube) st' meth brunt beam dist =
      findSpatialWidths ext radio hdr cdelt eps cube st meth brunt beam dist := by
  have hc2 : 0 < c ^ 2 := by positivity
  obtain ⟨a1, a2, a3, a4⟩ := pca_fields h
  obtain ⟨b1, b2, b3, b4⟩ := pca_fields h'
  have hee : st'.eigvals = st.eigvals.map (c ^ 2 * ·) := by
    rw [b1, a1, ← sort_scale _ hc2, List.map_map]
    rfl
  have hvv : st'.eigvecs = st.eigvecs := by rw [a2, b2]
  have hms : st'.meanSub = st.meanSub := by rw [a3, b3]
  have hnn : st'.nEigs = st.nEigs := by
    have := b4.trans a4.symm
    exact_mod_cast this
  have hidx : ∀ k, eigIndices eps st'.eigvals k = eigIndices eps st.eigvals k := by
    apply idx_same (by rw [hee]; simp)
    intro q hq
    have hmem : st.eigvals.getD q 0 ∈ st.eigvals := by
      rw [List.getD_eq_getElem _ _ hq]; exact List.getElem_mem hq
    have hmem' : st.eigvals.getD q 0 ∈ (List.range n).map lam := by
      rw [a1] at hmem ⊢
      exact (List.perm_insertionSort _ _).mem_iff.1 hmem
    obtain ⟨i, hi, hi'⟩ := List.mem_map.1 hmem'
    rw [hee, show (0 : ℝ) = c ^ 2 * 0 by ring, List.getD_map]
    rw [show c ^ 2 * 0 = (0 : ℝ) by ring, ← hi']
    exact hval i (List.mem_range.1 hi)
  have himgs : ∀ ix : List ℕ, autocorrImages (ix.map fun q => eigImage st'.meanSub (timesCube c cube) (fun a => st'.eigvecs a q)) =
      (autocorrImages (ix.map fun q => eigImage st.meanSub cube (fun a => st.eigvecs a q))).map (List.map (scaleImg (c ^ 2))) := by
    intro ix
    rw [← acors_scale, List.map_map]
    congr 1
    apply List.map_congr_left
    intro q _
    rw [hms, hvv, eig_scale]
    rfl
  have hnoise : noiseAcf eps (timesCube c cube) st' (-10) = (noiseAcf eps cube st (-10)).map (scaleImg (c ^ 2)) := by
    unfold noiseAcf
    rw [hidx]
    cases hix : eigIndices eps st.eigvals (-10) with
    | error e => rfl
    | ok ix =>
      simp only [bind, Except.bind, pure, Except.pure]
      rw [himgs]
      cases autocorrImages (ix.map fun q => eigImage st.meanSub cube (fun a => st.eigvecs a q)) with
      | error e => rfl
      | ok l =>
        simp only [Except.map]
        congr 1
        unfold scaleImg
        congr 1
        funext r d
        rw [List.map_map, ← mul_div_assoc, ← List.sum_map_mul_left]
        rfl
  unfold findSpatialWidths
  rw [hnn, hidx]
  cases beamFor radio hdr brunt beam with
  | error e => rfl
  | ok bm =>
  simp only [bind, Except.bind]
  cases eigIndices eps st.eigvals (st.nEigs : ℤ) with
  | error e => rfl
  | ok ix =>
    simp only [bind, Except.bind]
    rw [himgs]
    cases autocorrImages (ix.map fun q => eigImage st.meanSub cube (fun a => st.eigvecs a q)) with
    | error e => rfl
    | ok l =>
      simp only [Except.map]
      rw [hnoise]
      cases noiseAcf eps cube st (-10) with
      | error e => rfl
      | ok z =>
        simp only [Except.map]
        exact est_scale ext (c ^ 2) hc2 l z meth hm brunt bm cdelt

/-- **C92 (brightness, violation).** The rounding unit is compared with the eigenvalues themselves, whatever the unit of the data: in a
unit that makes the numbers small enough, the same cube has no "valid" component and `find_spatial_widths` fails. -/
theorem C92_faint_violated (ext : WidthExt) (radio : Option (Py (ℝ × ℝ × ℝ))) (hdr : Option BeamHeader) (cdelt : Option SQ) (eps : ℝ)
    (he : 0 < eps) (cube : Arr3 (Option ℝ)) (n : ℕ) (lam : ℕ → ℝ) (V : ℕ → ℕ → ℝ) (ord : ℕ → ℕ) (ms : Bool) (k : ℕ) (h2 : 2 ≤ k) (hk : k ≤ n)
    (me : Option ℝ) (cm : CutMethod) : ∃ c0 > 0, ∀ c, 0 < c → c ≤ c0 → ∃ st,
      computePca n (fun i => c ^ 2 * lam i) V ord ms (.num k) me cm = .ok st ∧
      ∀ meth beam dist, findSpatialWidths ext radio hdr cdelt eps (timesCube c cube) st meth false beam dist = .error .unboundLocal := by
  set S := ∑ i ∈ range n, |lam i| with hS
  have hS0 : 0 ≤ S := sum_nonneg fun i _ => abs_nonneg _
  refine ⟨Real.sqrt (eps / (2 * (S + 1))), Real.sqrt_pos.2 (by positivity), fun c hc hle => ?_⟩
  have hc2 : c ^ 2 ≤ eps / (2 * (S + 1)) := by
    have := pow_le_pow_left₀ hc.le hle 2
    rwa [Real.sq_sqrt (by positivity)] at this
  have hsmall : ∀ i < n, c ^ 2 * lam i < eps := by
    intro i hi
    have h1 : lam i ≤ S := (le_abs_self _).trans (single_le_sum (f := fun i => |lam i|) (fun j _ => abs_nonneg _) (mem_range.2 hi))
    have h3 : c ^ 2 * lam i ≤ c ^ 2 * S := mul_le_mul_of_nonneg_left h1 (by positivity)
    have h4 : c ^ 2 * S ≤ eps / (2 * (S + 1)) * S := mul_le_mul_of_nonneg_right hc2 hS0
    have h5 : eps / (2 * (S + 1)) * S < eps := by
      rw [div_mul_eq_mul_div, div_lt_iff₀ (by positivity)]
      nlinarith
    linarith
  obtain ⟨st, hst, -⟩ := (C33_n_eigs n (by omega) (fun i => c ^ 2 * lam i) V ord ms (k : ℤ) me cm).2.1 ⟨by omega, by omega⟩
  refine ⟨st, hst, fun meth beam dist => ?_⟩
  obtain ⟨a1, a2, a3, a4⟩ := pca_fields hst
  have hn : st.nEigs = k := by
    rw [if_neg (by omega)] at a4
    exact_mod_cast a4
  obtain ⟨hp, -, hlen⟩ := C33_sorted _ _ _ _ _ _ _ _ _ hst
  have hvalid : validEigs eps st.eigvals = [] := by
    unfold validEigs
    rw [List.filter_eq_nil_iff]
    intro q hq
    simp only [decide_eq_true_eq, not_le]
    have hq' : q < st.eigvals.length := List.mem_range.1 hq
    have hmem : st.eigvals.getD q 0 ∈ (List.range n).map (fun i => c ^ 2 * lam i) := by
      rw [List.getD_eq_getElem _ _ hq']; exact hp.mem_iff.1 (List.getElem_mem hq')
    obtain ⟨i, hi, hi'⟩ := List.mem_map.1 hmem
    rw [← hi']
    exact hsmall i (List.mem_range.1 hi)
  unfold findSpatialWidths beamFor
  simp only [Bool.false_eq_true, if_false, bind, Except.bind, pure, Except.pure]
  have hix : eigIndices eps st.eigvals (st.nEigs : ℤ) = .ok (List.range st.nEigs) := by
    unfold eigIndices
    rw [if_pos (by omega), if_neg (by simp; omega)]
    simp
  rw [hix]
  simp only
  rw [acors_range (timesCube c cube) st (by omega)]
  simp only
  have : noiseAcf eps (timesCube c cube) st (-10) = .error .unboundLocal := by
    unfold noiseAcf eigIndices
    simp [hvalid, autocorrImages, bind, Except.bind]
  rw [this]

/-! ### The arguments -/

/-- **C92 (beam).** Without beam correction neither the header nor a given beam matters.  With it, a given beam is used whatever the
header says; otherwise the header's BMAJ is the beam, in degrees, and without BMAJ or without a FITS header the call is refused. -/
theorem C92_beam (ext : WidthExt) (hdr : Option BeamHeader) (cdelt : Option SQ) (eps : ℝ) (cube : Arr3 (Option ℝ)) (st : PcaState)
    (meth : Width2D) (dist : Option SQ) :
    (∀ radio radio' hdr' beam beam', findSpatialWidths ext radio hdr cdelt eps cube st meth false beam dist =
      findSpatialWidths ext radio' hdr' cdelt eps cube st meth false beam' dist) ∧
    (∀ radio radio' hdr' b, findSpatialWidths ext radio hdr cdelt eps cube st meth true (some b) dist =
      findSpatialWidths ext radio' hdr' cdelt eps cube st meth true (some b) dist) ∧
    (∀ bmaj bmin bpa, hdr = some ⟨some bmaj, bmin, bpa⟩ → findSpatialWidths ext none hdr cdelt eps cube st meth true none dist =
      findSpatialWidths ext none hdr cdelt eps cube st meth true (some ⟨bmaj, .angle 1⟩) dist) ∧
    (∀ bmin bpa, hdr = some ⟨none, bmin, bpa⟩ →
      findSpatialWidths ext none hdr cdelt eps cube st meth true none dist = .error .valueError) ∧
    (hdr = none → findSpatialWidths ext none hdr cdelt eps cube st meth true none dist = .error .typeError) := by
  refine ⟨?_, fun _ _ _ _ => rfl, ?_, ?_, ?_⟩
  · intro radio radio' hdr' beam beam'
    unfold findSpatialWidths beamFor
    simp only [Bool.false_eq_true, if_false, bind, Except.bind, pure, Except.pure]
    cases eigIndices eps st.eigvals (st.nEigs : ℤ) with
    | error e => rfl
    | ok ix =>
      simp only
      cases autocorrImages (ix.map fun q => eigImage st.meanSub cube (fun a => st.eigvecs a q)) with
      | error e => rfl
      | ok l =>
        simp only
        cases noiseAcf eps cube st (-10) with
        | error e => rfl
        | ok z => cases meth <;> cases l <;> rfl
  · rintro bmaj bmin bpa rfl
    rfl
  · rintro bmin bpa rfl
    rfl
  · rintro rfl
    rfl

/-- **C92 (beam in the header).** A header with BMAJ gives the beam, a circular one at angle 0 when BMIN and BPA are missing. -/
theorem C92_beam_header (bmaj : ℝ) (bmin bpa : Option ℝ) :
    ∃ b, findBeamProperties none (some ⟨some bmaj, bmin, bpa⟩) = .ok b ∧ b.1 = bmaj ∧ (∀ v, bmin = some v → b.2.1 = v) ∧
      (bmin = none → b.2.1 = bmaj) ∧ (∀ v, bpa = some v → b.2.2 = v) ∧ (bpa = none → b.2.2 = 0) ∧
      findBeamWidth none (some ⟨some bmaj, bmin, bpa⟩) = .ok ⟨bmaj, .angle 1⟩ := by
  refine ⟨_, rfl, rfl, ?_, ?_, ?_, ?_, rfl⟩
  · rintro v rfl; rfl
  · rintro rfl; rfl
  · rintro v rfl; rfl
  · rintro rfl; rfl

/-- **C92 (distance, violation).** The widths are said to be converted with the `distance` argument.  It is ignored: the widths are the
same with and without it, and asking for them in a physical unit fails unless a distance was given when the object was made. -/
theorem C92_distance_violated (ext : WidthExt) (radio : Option (Py (ℝ × ℝ × ℝ))) (hdr : Option BeamHeader) (cdelt : Option SQ) (eps : ℝ)
    (cube : Arr3 (Option ℝ)) (st : PcaState) (meth : Width2D) (brunt : Bool) (beam : Option SQ) (d : SQ) :
    findSpatialWidths ext radio hdr cdelt eps cube st meth brunt beam (some d) =
      findSpatialWidths ext radio hdr cdelt eps cube st meth brunt beam none ∧
    ∀ (s : Spatial) (w : Option ℝ × Option ℝ) (pc : ℝ), s.dist = none → spatialWidth s w (.length pc) = .error .attributeError := by
  refine ⟨rfl, fun s w pc h => ?_⟩
  unfold spatialWidth fromPixel physFactor
  simp only [h, bind, Except.bind]
  cases w.1 <;> rfl

/-- **C92 (refused).** An unknown method is refused, whatever the images. -/
theorem C92_unknown (ext : WidthExt) (imgs : List (Arr2 ℝ)) (noise : Arr2 ℝ) (brunt : Bool) (beam cdelt : Option SQ) :
    widthEstimate2D ext imgs noise .other brunt beam cdelt = .error .valueError := rfl

/-- **C92 (one component, violation).** With a single significant component there are no widths: the autocorrelation of a single
eigenimage fails. -/
theorem C92_one_violated (ext : WidthExt) (radio : Option (Py (ℝ × ℝ × ℝ))) (hdr : Option BeamHeader) (cdelt : Option SQ) (eps : ℝ)
    (cube : Arr3 (Option ℝ)) (st : PcaState) (h1 : st.nEigs = 1) (he : st.eigvals ≠ []) (meth : Width2D) (beam dist : Option SQ) :
    findSpatialWidths ext radio hdr cdelt eps cube st meth false beam dist = .error .indexError := by
  have hlen : ¬ st.eigvals.length < 1 := by
    have := List.length_pos_iff.2 he; omega
  unfold findSpatialWidths beamFor eigIndices
  simp [h1, hlen, bind, Except.bind, pure, Except.pure, autocorrImages, List.range_succ]

/-! ### The hypotheses can be met -/

/-- A fitter that knows the answer, and contours that are always absent. -/
private noncomputable def idealExt : WidthExt :=
  ⟨fun _ => [], fun m => m, fun _ => (0, 0), fun _ => ⟨2, 1, 0.3, 0, 0, 0⟩, fun _ _ _ => 0⟩

/-- Non-vacuity of the fit: a tilted Gaussian on 6 by 7 pixels. -/
example : let img : Arr2 ℝ := ⟨6, 7, fun i j => 3 * ellGauss 2 1 0.3 (lagOf 6 7 i j)⟩
    (∀ i < img.n, ∀ j < img.m, img.get i j - 0 = 3 * ellGauss 2 1 0.3 (lagOf img.n img.m i j)) ∧
    FitsSurface idealExt (subImage img ⟨6, 7, fun _ _ => 0⟩) := by
  intro img
  have hmx : npMax (subImage img ⟨6, 7, fun _ _ => 0⟩).ravel = .ok 3 := by
    refine npMax_eq (mem_ravel.2 ⟨3, by show (3 : ℕ) < 6; norm_num, 3, by show (3 : ℕ) < 7; norm_num, ?_⟩) ?_
    · show 3 * ellGauss 2 1 0.3 (lagOf 6 7 3 3) - 0 = 3
      have : lagOf 6 7 3 3 = (0, 0) := lag_zero 6 7
      rw [this, ell_origin]; norm_num
    · intro y hy
      obtain ⟨i, hi, j, hj, rfl⟩ := mem_ravel.1 hy
      show 3 * ellGauss 2 1 0.3 (lagOf 6 7 i j) - 0 ≤ 3
      linarith [ell_le 2 1 0.3 (lagOf 6 7 i j)]
  refine ⟨fun i _ j _ => by simp [img], by norm_num [idealExt], by norm_num [idealExt], fun amp hamp g _ _ => ?_⟩
  rw [hmx] at hamp
  cases hamp
  have : surfaceError 3 (subImage img ⟨6, 7, fun _ _ => 0⟩) (idealExt.gauss (subImage img ⟨6, 7, fun _ _ => 0⟩)) = 0 := by
    refine sum_eq_zero fun i _ => sum_eq_zero fun j _ => ?_
    simp [idealExt, subImage, img]
  rw [this]
  exact sum_nonneg fun i _ => sum_nonneg fun j _ => sq_nonneg _

/-- Eleven components of a cube of two channels of 1 by 3 pixels; the first sees channel 0, the others channel 1. -/
private def twoChan : Arr3 (Option ℝ) := ⟨2, 1, 3, fun a _ c => some (if c = 1 ∨ (a = 0 ∧ c = 2) then 1 else 0)⟩

private noncomputable def elevenSt : PcaState :=
  ⟨List.replicate 11 1, fun a q => if q = 0 then (if a = 0 then 1 else 0) else (if a = 1 then 1 else 0), 2, 11, none, false⟩

private theorem eleven_last : lastValid (1 / 2) elevenSt.eigvals 10 = [1, 2, 3, 4, 5, 6, 7, 8, 9, 10] := by
  have h : ((List.range elevenSt.eigvals.length).filter (fun q => decide ((1 / 2 : ℝ) ≤ elevenSt.eigvals.getD q 0))) = List.range 11 := by
    have hl : elevenSt.eigvals.length = 11 := by simp [elevenSt]
    rw [hl, List.filter_eq_self]
    intro q hq
    have hq' := List.mem_range.1 hq
    have : elevenSt.eigvals.getD q 0 = 1 := by
      unfold elevenSt
      simp only
      rw [List.getD_eq_getElem _ _ (by simpa using hq')]
      exact List.getElem_replicate _
    rw [this]
    norm_num
  unfold lastValid
  rw [h]
  rfl

private theorem eleven_acf : compAcf twoChan elevenSt 0 0 2 = 1 ∧ compAcf twoChan elevenSt 0 0 1 = 2 ∧
    ∀ q, q ≠ 0 → compAcf twoChan elevenSt q 0 2 = 0 ∧ compAcf twoChan elevenSt q 0 1 = 1 := by
  have e : ∀ q r c, (eigImage elevenSt.meanSub twoChan (fun a => elevenSt.eigvecs a q)).get r c =
      if q = 0 then (if c = 1 ∨ c = 2 then 1 else 0) else (if c = 1 then 1 else 0) := by
    intro q r c
    unfold eigImage twoChan elevenSt
    by_cases hq : q = 0 <;> simp [hq, sum_range_succ, mulO]
  refine ⟨?_, ?_, fun q hq => ⟨?_, ?_⟩⟩
  all_goals
    unfold compAcf circAcf cornerless
    simp only [e]
    simp [twoChan, sum_range_succ, *]
  all_goals norm_num

/-- Non-vacuity of the noise theorem and of the contour theorem: two measured and ten noise components. -/
example : 2 ≤ elevenSt.nEigs ∧ elevenSt.nEigs ≤ elevenSt.eigvals.length ∧ (lastValid (1 / 2) elevenSt.eigvals 10).length = 10 ∧
    ((lastValid (1 / 2) elevenSt.eigvals 10).map fun k => compAcf twoChan elevenSt k 0 2).sum = 0 ∧
    0 < compAcf twoChan elevenSt 0 0 2 ∧
    0 < meanCompAcf twoChan elevenSt (lastValid (1 / 2) elevenSt.eigvals 10) (twoChan.m / 2) (twoChan.p / 2) ∧
    meanCompAcf twoChan elevenSt (lastValid (1 / 2) elevenSt.eigvals 10) (twoChan.m / 2) (twoChan.p / 2) <
      compAcf twoChan elevenSt 0 (twoChan.m / 2) (twoChan.p / 2) ∧
    LooksAtPixels idealExt ∧ 0 < twoChan.m ∧ 0 < twoChan.p := by
  obtain ⟨h1, h2, h3⟩ := eleven_acf
  have hm : twoChan.m / 2 = 0 := rfl
  have hp : twoChan.p / 2 = 1 := rfl
  rw [hm, hp, eleven_last]
  refine ⟨by simp [elevenSt], by simp [elevenSt], rfl, ?_, by rw [h1]; norm_num, ?_, ?_, fun _ _ _ _ _ => rfl, by simp [twoChan],
    by simp [twoChan]⟩
  · simp [(h3 _ _).1, h3]
  · simp [meanCompAcf, h3]
    norm_num
  · simp [meanCompAcf, h3, h2]
    norm_num

/-- Non-vacuity of the brightness theorem: both decompositions exist and the same components stay valid. -/
example : (∃ st, computePca 3 (fun _ => 1) (fun i j => if i = j then 1 else 0) id false (.num 2) none .value = .ok st) ∧
    (∃ st, computePca 3 (fun _ => 2 ^ 2 * 1) (fun i j => if i = j then 1 else 0) id false (.num 2) none .value = .ok st) ∧
    ∀ i < 3, (1 / 2 : ℝ) ≤ 2 ^ 2 * (fun _ : ℕ => (1 : ℝ)) i ↔ (1 / 2 : ℝ) ≤ (fun _ : ℕ => (1 : ℝ)) i := by
  refine ⟨?_, ?_, fun i _ => by norm_num⟩
  · obtain ⟨st, h, -⟩ := (C33_n_eigs 3 (by norm_num) (fun _ => 1) (fun i j => if i = j then 1 else 0) id false 2 none .value).2.1 (by norm_num)
    exact ⟨st, h⟩
  · obtain ⟨st, h, -⟩ := (C33_n_eigs 3 (by norm_num) (fun _ => 2 ^ 2 * 1) (fun i j => if i = j then 1 else 0) id false 2 none .value).2.1
      (by norm_num)
    exact ⟨st, h⟩

end TS
