import Verif.Model.FitPlots
import Verif.Lemmas.PlawFit
import Verif.Props.C12
import Verif.Props.C51
import Verif.Props.C58
import Mathlib.Tactic.Linarith
import Mathlib.Tactic.FieldSimp
import Mathlib.Tactic.NormNum
import Mathlib.Tactic.Positivity

/-!
C96 — what the fit plots show: points, fitted curve, limits and residuals in the requested unit.
-/

namespace TS

namespace Spec

/-- One pixel measures `c` of the unit. -/
def PixelSize (s : Spatial) (unit : SUnit) (c : ℝ) : Prop := 0 < c ∧ fromPixel s 1 unit = .ok ⟨c, unit⟩

/-- The power law whose logarithm is the line `a + b log x`, at a scale or frequency in pixels. -/
noncomputable def powerLaw (a b x : ℝ) : ℝ := (10 : ℝ) ^ a * x ^ b

/-- The values that are drawn: those with a value or an error. -/
def drawn (pts : List CurvePt) : List CurvePt := pts.filter fun p => p.y.isSome || p.err.isSome

/-- A curve that follows the power law, when one pixel is `c` units of its axis. -/
def Follows (a b c : ℝ) (curve : List (ℝ × ℝ)) : Prop := ∀ q ∈ curve, q.2 = powerLaw a b (q.1 / c)

end Spec

private theorem ten_pow (a b x : ℝ) (hx : 0 < x) : (10 : ℝ) ^ (a + b * log10 x) = Spec.powerLaw a b x := by
  unfold Spec.powerLaw log10
  rw [Real.rpow_add (by norm_num), mul_comm b, Real.rpow_mul (by norm_num), Real.rpow_logb (by norm_num) (by norm_num) hx]

private theorem from_ok {s : Spatial} {unit : SUnit} {c : ℝ} (_hc : 0 < c) (h : fromPixel s 1 unit = .ok ⟨c, unit⟩) (p : ℝ) :
    fromPixel s p unit = .ok ⟨p * c, unit⟩ := by
  cases unit with
  | pix =>
    have h1 : (⟨1, .pix⟩ : SQ) = ⟨c, .pix⟩ := by injection h
    injection h1 with h1
    subst h1
    simp [fromPixel]
  | other => simp [fromPixel] at h
  | angle deg =>
    unfold fromPixel at *
    rcases hf : angFactor s with e | f
    · rw [hf] at h; exact absurd h (by intro h; cases h)
    · rw [hf] at h
      have h1 : (⟨1 * f / deg, .angle deg⟩ : SQ) = ⟨c, .angle deg⟩ := by injection h
      injection h1 with h1
      subst h1
      change Except.ok _ = Except.ok _
      congr 2; ring
  | length pc =>
    unfold fromPixel at *
    rcases hf : physFactor s with e | f
    · rw [hf] at h; exact absurd h (by intro h; cases h)
    · rw [hf] at h
      have h1 : (⟨1 * f.1 * f.2 / pc, .length pc⟩ : SQ) = ⟨c, .length pc⟩ := by injection h
      injection h1 with h1
      subst h1
      change Except.ok _ = Except.ok _
      congr 2; ring

/-- A pixel size is the factor of every conversion from and to pixels. -/
theorem C96_unit (s : Spatial) (unit : SUnit) (c : ℝ) (h : Spec.PixelSize s unit c) (p : ℝ) :
    fromPixel s p unit = .ok ⟨p * c, unit⟩ ∧ toPixel s ⟨p, unit⟩ = .ok (p / c) ∧ fromPixelFreq s p unit = .ok (p / c) := by
  obtain ⟨hc, h⟩ := h
  have key : toPixel s ⟨p, unit⟩ = .ok (p / c) := by
    cases unit with
    | pix =>
      have h1 : (⟨1, .pix⟩ : SQ) = ⟨c, .pix⟩ := by injection h
      injection h1 with h1
      subst h1
      simp [toPixel]
    | other => simp [fromPixel] at h
    | angle deg =>
      unfold fromPixel at h
      unfold toPixel
      rcases hf : angFactor s with e | f
      · rw [hf] at h; exact absurd h (by intro h; cases h)
      · rw [hf] at h
        have h1 : (⟨1 * f / deg, .angle deg⟩ : SQ) = ⟨c, .angle deg⟩ := by injection h
        injection h1 with h1
        subst h1
        change Except.ok _ = Except.ok _
        congr 1
        rw [one_mul, div_div_eq_mul_div]
    | length pc =>
      unfold fromPixel at h
      unfold toPixel
      rcases hf : physFactor s with e | f
      · rw [hf] at h; exact absurd h (by intro h; cases h)
      · rw [hf] at h
        have h1 : (⟨1 * f.1 * f.2 / pc, .length pc⟩ : SQ) = ⟨c, .length pc⟩ := by injection h
        injection h1 with h1
        subst h1
        change Except.ok _ = Except.ok _
        congr 1
        rw [one_mul, div_div_eq_mul_div, div_div, mul_comm f.2 f.1]
  refine ⟨from_ok hc h p, key, ?_⟩
  have := from_ok hc h (1 / p)
  unfold fromPixelFreq
  rw [this]
  change Except.ok _ = Except.ok _
  congr 1
  simp only [one_div]
  rw [mul_inv, inv_inv, ← div_eq_mul_inv]

/-- Pixels always have size one, and a header with a distance gives every angular and physical unit a size. -/
example : Spec.PixelSize ⟨none, none⟩ .pix 1 ∧ Spec.PixelSize (spStat 2 1 3 1) (.angle (1 / 60)) 120 ∧
    ∃ c, Spec.PixelSize (spStat 2 1 3 1) (.length 1) c := by
  refine ⟨⟨by norm_num, rfl⟩, ⟨by norm_num, ?_⟩, 1 * (2 * 1 * (Real.pi / 180) * 3) * 1 / 1, by positivity, rfl⟩
  change Except.ok _ = Except.ok _
  congr 2
  norm_num

theorem conv_ok {s : Spatial} {unit : SUnit} {c : ℝ} (h : Spec.PixelSize s unit c) (x : ℝ) :
    convScale s unit x = .ok (x * c) := by
  unfold convScale
  rw [(C96_unit s unit c h x).1]
  rfl

private theorem zip_map_self {α β : Type} (f : α → β) (l : List α) : (l.map f).zip l = l.map fun x => (f x, x) := by
  induction l with
  | nil => rfl
  | cons x l ih => simp [ih]

private theorem zip_maps {α β γ : Type} (f : α → β) (g : α → γ) (l : List α) :
    (l.map f).zip (l.map g) = l.map fun x => (f x, g x) := by
  induction l with
  | nil => rfl
  | cons x l ih => simp [ih]

private theorem zip_self_map {α β : Type} (g : α → β) (l : List α) : l.zip (l.map g) = l.map fun x => (x, g x) := by
  induction l with
  | nil => rfl
  | cons x l ih => simp [ih]

private theorem points_eq (c : ℝ) (pts : List CurvePt) :
    ((((pts.map fun p => p.x * c).zip pts).filter fun x => x.2.fin).map fun x => (x.1, x.2.y)) =
      (Spec.drawn pts).map fun p => (p.x * c, p.y) := by
  rw [zip_map_self, Spec.drawn]
  induction pts with
  | nil => rfl
  | cons p l ih =>
    simp only [List.map_cons, List.filter_cons, CurvePt.fin] at ih ⊢
    split <;> simp_all

private theorem lin_pos {lo hi : ℝ} (h0 : 0 < lo) (h : lo < hi) (n i : ℕ) (hn : 2 ≤ n) (hi' : i < n) :
    lo ≤ (linspace lo hi n).get i ∧ (linspace lo hi n).get i ≤ hi ∧ 0 < (linspace lo hi n).get i := by
  have h1 : lo ≤ (linspace lo hi n).get i := by
    rcases Nat.eq_zero_or_pos i with rfl | hp
    · rw [linspace_first]
    · have := linspace_strictMono h hn hp
      rw [linspace_first] at this
      exact this.le
  refine ⟨h1, ?_, lt_of_lt_of_le h0 h1⟩
  rcases Nat.lt_or_ge i (n - 1) with hp | hp
  · have := linspace_strictMono h hn hp
    rw [linspace_last lo hi hn] at this
    exact this.le
  · have : i = n - 1 := by omega
    rw [this, linspace_last lo hi hn]

private theorem deltavar_eq (s : Spatial) (unit : SUnit) (c a b : ℝ) (h : Spec.PixelSize s unit c) (range : ℝ × ℝ) (pts : List CurvePt)
    (r : Bool) :
    deltavarPlot s (.line a b) range pts unit r = .ok
      { points := (Spec.drawn pts).map fun p => (p.x * c, p.y)
        curve := (List.range 100).map fun i =>
          ((linspace range.1 range.2 100).get i * c, (10 : ℝ) ^ (a + b * log10 ((linspace range.1 range.2 100).get i)))
        limits := (range.1 * c, range.2 * c)
        resid := if r then some ((Spec.drawn pts).map fun p => (p.x * c, p.y.map fun y => y - (10 : ℝ) ^ (a + b * log10 (p.x * c)))) else none } := by
  have hr : deltavarResid (.line a b) (pts.map fun p => p.x * c) pts r = .ok (if r then
      some ((Spec.drawn pts).map fun p => (p.x * c, p.y.map fun y => y - (10 : ℝ) ^ (a + b * log10 (p.x * c)))) else none) := by
    cases r with
    | false => rfl
    | true =>
      change Except.ok (some _) = Except.ok (some _)
      congr 2
      simp only [List.map_map]
      rw [zip_self_map, zip_maps, Spec.drawn]
      clear h
      induction pts with
      | nil => rfl
      | cons p l ih =>
        simp only [List.map_cons, List.filter_cons, CurvePt.fin] at ih ⊢
        split <;> simp_all
  unfold deltavarPlot
  rw [mapM_all_ok _ (fun p => p.x * c) pts (fun p _ => conv_ok h p.x)]
  simp only [bind, Except.bind]
  rw [mapM_all_ok _ (fun x => x * c) _ (fun x _ => conv_ok h x)]
  simp only [conv_ok h, hr, fittedModel, pure, Except.pure, points_eq]
  simp only [List.map_map]
  rw [zip_maps, List.map_map]
  rfl

/-- Delta-variance, for every unit with a pixel size, every fit without a break and every list of values: the points are the drawn
values at their lags in that unit; the curve consists of a hundred points between the fit limits, follows the fitted power law and
runs from one limit to the other; the limits are those of the fit. -/
theorem C96_delta (s : Spatial) (unit : SUnit) (c a b : ℝ) (h : Spec.PixelSize s unit c) (range : ℝ × ℝ) (h0 : 0 < range.1)
    (h1 : range.1 < range.2) (pts : List CurvePt) (r : Bool) :
    ∃ P, deltavarPlot s (.line a b) range pts unit r = .ok P ∧ P.points = (Spec.drawn pts).map (fun p => (p.x * c, p.y)) ∧
      Spec.Follows a b c P.curve ∧ P.curve.length = 100 ∧ (∀ q ∈ P.curve, range.1 * c ≤ q.1 ∧ q.1 ≤ range.2 * c) ∧
      P.curve[0]?.map Prod.fst = some (range.1 * c) ∧ P.curve[99]?.map Prod.fst = some (range.2 * c) ∧
      P.limits = (range.1 * c, range.2 * c) := by
  have hc := h.1
  refine ⟨_, deltavar_eq s unit c a b h range pts r, rfl, ?_, by simp, ?_, ?_, ?_, rfl⟩
  · intro q hq
    obtain ⟨i, hi, rfl⟩ := List.mem_map.1 hq
    have hp := (lin_pos h0 h1 100 i (by norm_num) (List.mem_range.1 hi)).2.2
    rw [mul_div_cancel_right₀ _ hc.ne']
    exact ten_pow a b _ hp
  · intro q hq
    obtain ⟨i, hi, rfl⟩ := List.mem_map.1 hq
    have hp := lin_pos h0 h1 100 i (by norm_num) (List.mem_range.1 hi)
    exact ⟨mul_le_mul_of_nonneg_right hp.1 hc.le, mul_le_mul_of_nonneg_right hp.2.1 hc.le⟩
  · simp [linspace_first]
  · have := linspace_last range.1 range.2 (num := 100) (by norm_num)
    norm_num at this
    simp [this]

/-- Delta-variance residuals on an axis in pixels: value minus fitted power law at that lag, for every drawn value.  Missing for the full
claim: other units, where it fails (`C96_delta_resid_violated`). -/
theorem C96_delta_resid_partial (s : Spatial) (a b : ℝ) (range : ℝ × ℝ) (pts : List CurvePt) (hx : ∀ p ∈ pts, 0 < p.x) :
    ∃ P, deltavarPlot s (.line a b) range pts .pix true = .ok P ∧
      P.resid = some ((Spec.drawn pts).map fun p => (p.x, p.y.map fun y => y - Spec.powerLaw a b p.x)) := by
  refine ⟨_, deltavar_eq s .pix 1 a b ⟨by norm_num, rfl⟩ range pts true, ?_⟩
  simp only [if_true]
  congr 1
  apply List.map_congr_left
  intro p hp
  have := hx p (List.mem_filter.1 hp).1
  rw [mul_one, ten_pow a b _ this]

private theorem law_scale (a b c x : ℝ) (hc : 0 < c) (hx : 0 < x) : Spec.powerLaw a b (x * c) = c ^ b * Spec.powerLaw a b x := by
  unfold Spec.powerLaw
  rw [Real.mul_rpow hx.le hc.le]; ring

private theorem rpow_ne_one {c b : ℝ} (hc : 0 < c) (h1 : c ≠ 1) (hb : b ≠ 0) : c ^ b ≠ 1 := by
  intro h
  have : Real.log (c ^ b) = 0 := by rw [h, Real.log_one]
  rw [Real.log_rpow hc] at this
  rcases mul_eq_zero.1 this with h2 | h2
  · exact hb h2
  · rcases Real.log_eq_zero.1 h2 with h3 | h3 | h3
    · exact hc.ne' h3
    · exact h1 h3
    · linarith

/-- The model is evaluated at the lag in the unit of the axis although it was fitted to pixels: in any unit in which a pixel is not 1,
and for any slope other than 0, every residual is off (the model value is multiplied by `c ^ b`). -/
theorem C96_delta_resid_violated (s : Spatial) (unit : SUnit) (c a b : ℝ) (h : Spec.PixelSize s unit c) (hc : c ≠ 1) (hb : b ≠ 0)
    (range : ℝ × ℝ) (pts : List CurvePt) (hx : ∀ p ∈ pts, 0 < p.x) :
    ∃ P, deltavarPlot s (.line a b) range pts unit true = .ok P ∧
      P.resid = some ((Spec.drawn pts).map fun p => (p.x * c, p.y.map fun y => y - c ^ b * Spec.powerLaw a b p.x)) ∧
      ∀ p ∈ pts, ∀ y : ℝ, y - c ^ b * Spec.powerLaw a b p.x ≠ y - Spec.powerLaw a b p.x := by
  refine ⟨_, deltavar_eq s unit c a b h range pts true, ?_, ?_⟩
  · simp only [if_true]
    congr 1
    apply List.map_congr_left
    intro p hp
    have := hx p (List.mem_filter.1 hp).1
    rw [ten_pow a b _ (mul_pos this h.1), law_scale a b c _ h.1 this]
  · intro p hp y he
    have hpos : 0 < Spec.powerLaw a b p.x := mul_pos (Real.rpow_pos_of_pos (by norm_num) _) (Real.rpow_pos_of_pos (hx p hp) _)
    have h2 : c ^ b * Spec.powerLaw a b p.x = 1 * Spec.powerLaw a b p.x := by linarith
    exact rpow_ne_one h.1 hc hb (mul_right_cancel₀ hpos.ne' h2)

private theorem wavelet_eq (s : Spatial) (unit : SUnit) (c a b : ℝ) (h : Spec.PixelSize s unit c) (range : ℝ × ℝ) (pts : List CurvePt)
    (r : Bool) :
    waveletPlot s (.line a b) range pts unit r =
      if r = true ∧ ¬ pts.all CurvePt.fin = true then .error .valueError
      else .ok
      { points := (Spec.drawn pts).map fun p => (p.x * c, p.y)
        curve := pts.map fun p => (p.x * c, (10 : ℝ) ^ (a + b * log10 p.x))
        limits := (range.1 * c, range.2 * c)
        resid := if r then some (pts.map fun p => (p.x * c, p.y.map fun y => y - (10 : ℝ) ^ (a + b * log10 p.x))) else none } := by
  unfold waveletPlot
  rw [mapM_all_ok _ (fun p => p.x * c) pts (fun p _ => conv_ok h p.x)]
  simp only [bind, Except.bind, conv_ok h, fittedModel, pure, Except.pure, points_eq, List.map_map]
  rw [zip_maps, zip_self_map, zip_maps]
  simp only [List.map_map, Function.comp_def]

/-- Wavelet transform, for every unit with a pixel size and every fit without a break: without residuals, or when every scale has a value
or an error, the points are the drawn values at their scales in that unit, the curve follows the fitted power law at every scale, the
limits are those of the fit and the residuals, when asked for, are value minus fitted power law. -/
theorem C96_wavelet (s : Spatial) (unit : SUnit) (c a b : ℝ) (h : Spec.PixelSize s unit c) (range : ℝ × ℝ) (pts : List CurvePt)
    (hx : ∀ p ∈ pts, 0 < p.x) (r : Bool) (hr : r = true → Spec.drawn pts = pts) :
    ∃ P, waveletPlot s (.line a b) range pts unit r = .ok P ∧ P.points = (Spec.drawn pts).map (fun p => (p.x * c, p.y)) ∧
      Spec.Follows a b c P.curve ∧ P.curve.map Prod.fst = pts.map (fun p => p.x * c) ∧ P.limits = (range.1 * c, range.2 * c) ∧
      P.resid = if r then some (pts.map fun p => (p.x * c, p.y.map fun y => y - Spec.powerLaw a b p.x)) else none := by
  have hc := h.1
  have hcond : ¬ (r = true ∧ ¬ pts.all CurvePt.fin = true) := by
    rintro ⟨h1, h2⟩
    apply h2
    have := List.filter_eq_self.1 (hr h1)
    rw [List.all_eq_true]
    exact this
  have he := wavelet_eq s unit c a b h range pts r
  rw [if_neg hcond] at he
  refine ⟨_, he, rfl, ?_, ?_, rfl, ?_⟩
  · intro q hq
    obtain ⟨p, hp, rfl⟩ := List.mem_map.1 hq
    change (10 : ℝ) ^ (a + b * log10 p.x) = Spec.powerLaw a b (p.x * c / c)
    rw [mul_div_cancel_right₀ _ hc.ne', ten_pow a b _ (hx p hp)]
  · simp only [List.map_map, Function.comp_def]
  · cases r with
    | false => rfl
    | true =>
      simp only [if_true]
      congr 1
      apply List.map_congr_left
      intro p hp
      rw [ten_pow a b _ (hx p hp)]

/-- A scale with neither value nor error makes the residual panel fail: all residuals are given the errors of the finite ones.
Delta-variance draws the same data. -/
theorem C96_wavelet_resid_violated (s : Spatial) (unit : SUnit) (c a b : ℝ) (h : Spec.PixelSize s unit c) (range : ℝ × ℝ)
    (pts : List CurvePt) (p : CurvePt) (hp : p ∈ pts) (hy : p.y = none) (he : p.err = none) :
    waveletPlot s (.line a b) range pts unit true = .error .valueError ∧
      ∃ P, deltavarPlot s (.line a b) range pts unit true = .ok P := by
  refine ⟨?_, _, deltavar_eq s unit c a b h range pts true⟩
  rw [wavelet_eq s unit c a b h, if_pos]
  refine ⟨rfl, fun hall => ?_⟩
  have := List.all_eq_true.1 hall p hp
  simp [CurvePt.fin, hy, he] at this

/-- SCF, for every unit with a pixel size and at least one lag: the points are the values at their lags in that unit, the curve follows the
fitted power law, the limits are those of the fit and the residuals are value minus fitted power law. -/
theorem C96_scf (s : Spatial) (unit : SUnit) (c a b : ℝ) (h : Spec.PixelSize s unit c) (range : ℝ × ℝ) (pts : List CurvePt)
    (hne : pts ≠ []) (hx : ∀ p ∈ pts, 0 < p.x) (r : Bool) :
    ∃ P, scfPlot s a b range pts unit r = .ok P ∧ P.points = pts.map (fun p => (p.x * c, p.y)) ∧
      Spec.Follows a b c P.curve ∧ P.curve.length = 50 ∧
      (∀ p ∈ pts, ∃ q ∈ P.curve, q.1 ≤ 0.95 * (p.x * c)) ∧ (∀ p ∈ pts, ∃ q ∈ P.curve, 1.05 * (p.x * c) ≤ q.1) ∧
      P.limits = (range.1 * c, range.2 * c) ∧
      P.resid = if r then some (pts.map fun p => (p.x * c, p.y.map fun y => y - Spec.powerLaw a b p.x)) else none := by
  have hc := h.1
  obtain ⟨mn, hmn, hmem, hmin⟩ : ∃ mn, npMin (pts.map fun p => p.x * c) = .ok mn ∧ mn ∈ pts.map (fun p => p.x * c) ∧
      ∀ v ∈ pts.map (fun p => p.x * c), mn ≤ v := by
    cases hz : npMin (pts.map fun p => p.x * c) with
    | error e =>
      cases pts with
      | nil => exact absurd rfl hne
      | cons p l => simp [npMin] at hz
    | ok z => exact ⟨z, rfl, npMin_spec hz⟩
  obtain ⟨mx, hmx, hmem', hmax⟩ : ∃ mx, npMax (pts.map fun p => p.x * c) = .ok mx ∧ mx ∈ pts.map (fun p => p.x * c) ∧
      ∀ v ∈ pts.map (fun p => p.x * c), v ≤ mx := by
    cases hz : npMax (pts.map fun p => p.x * c) with
    | error e =>
      cases pts with
      | nil => exact absurd rfl hne
      | cons p l => simp [npMax] at hz
    | ok z => exact ⟨z, rfl, npMax_spec hz⟩
  have hmn0 : 0 < mn := by
    obtain ⟨p, hp, rfl⟩ := List.mem_map.1 hmem
    exact mul_pos (hx p hp) hc
  have hle : mn ≤ mx := hmax mn hmem
  have hlt : mn * 0.95 < mx * 1.05 := by norm_num; linarith
  have hpos : ∀ i < 50, 0 < (linspace (mn * 0.95) (mx * 1.05) 50).get i := fun i hi =>
    (lin_pos (by norm_num; linarith) hlt 50 i (by norm_num) hi).2.2
  have hres : (pts.mapM fun p => scfModelAt s a b ⟨p.x, .pix⟩) = .ok (pts.map fun p => Spec.powerLaw a b p.x) := by
    apply mapM_all_ok
    intro p hp
    change Except.ok _ = Except.ok _
    congr 1
    exact ten_pow a b _ (hx p hp)
  have hmod : (((List.range 50).map (linspace (mn * 0.95) (mx * 1.05) 50).get).mapM fun x => scfModelAt s a b ⟨x, unit⟩) =
      .ok (((List.range 50).map (linspace (mn * 0.95) (mx * 1.05) 50).get).map fun x => Spec.powerLaw a b (x / c)) := by
    apply mapM_all_ok
    intro x hxm
    obtain ⟨i, hi, rfl⟩ := List.mem_map.1 hxm
    unfold scfModelAt
    rw [(C96_unit s unit c h _).2.1]
    change Except.ok _ = Except.ok _
    congr 1
    exact ten_pow a b _ (div_pos (hpos i (List.mem_range.1 hi)) hc)
  refine ⟨{ points := pts.map (fun p => (p.x * c, p.y))
            curve := (List.range 50).map fun i => ((linspace (mn * 0.95) (mx * 1.05) 50).get i,
              Spec.powerLaw a b ((linspace (mn * 0.95) (mx * 1.05) 50).get i / c))
            limits := (range.1 * c, range.2 * c)
            resid := if r then some (pts.map fun p => (p.x * c, p.y.map fun y => y - Spec.powerLaw a b p.x)) else none },
    ?_, rfl, ?_, by simp, ?_, ?_, rfl, rfl⟩
  · unfold scfPlot
    rw [mapM_all_ok _ (fun p => p.x * c) pts (fun p _ => conv_ok h p.x)]
    simp only [bind, Except.bind, hmn, hmx, hmod, hres, conv_ok h, pure, Except.pure]
    rw [zip_self_map, zip_map_self, zip_self_map, zip_maps]
    simp only [List.map_map, Function.comp_def]
  · intro q hq
    obtain ⟨i, hi, rfl⟩ := List.mem_map.1 hq
    rfl
  · intro p hp
    refine ⟨_, List.mem_map.2 ⟨0, by simp, rfl⟩, ?_⟩
    simp only [linspace_first]
    have := hmin _ (List.mem_map.2 ⟨p, hp, rfl⟩)
    norm_num; linarith
  · intro p hp
    refine ⟨_, List.mem_map.2 ⟨49, by simp, rfl⟩, ?_⟩
    have h2 := linspace_last (mn * 0.95) (mx * 1.05) (num := 50) (by norm_num)
    norm_num at h2 ⊢
    rw [h2]
    have := hmax _ (List.mem_map.2 ⟨p, hp, rfl⟩)
    linarith

/-- Values, a unit and a fit for the theorems above. -/
example : Spec.PixelSize (spStat 2 1 3 1) (.angle 1) 2 ∧ (2 : ℝ) ≠ 1 ∧
    (∀ p ∈ ([⟨1, some 3, some 1⟩, ⟨4, none, none⟩] : List CurvePt), 0 < p.x) ∧
    Spec.drawn [⟨1, some 3, some 1⟩, ⟨4, none, none⟩] = [⟨1, some 3, some 1⟩] ∧
    Spec.drawn [⟨1, some 3, some 1⟩, ⟨4, none, some 1⟩] = [⟨1, some 3, some 1⟩, ⟨4, none, some 1⟩] := by
  refine ⟨⟨by norm_num, ?_⟩, by norm_num, ?_, rfl, rfl⟩
  · change Except.ok _ = Except.ok _
    congr 2
    norm_num
  · intro p hp
    simp only [List.mem_cons, List.not_mem_nil, or_false] at hp
    rcases hp with rfl | rfl <;> norm_num

/-! ### Power spectra -/

namespace Spec

/-- Factor between a frequency per pixel and the number on the axis: wavenumbers are multiplied by the size of the image, and one pixel
measures `c` units. -/
noncomputable def axisFactor (wavenumber : Bool) (size : ℕ) (c : ℝ) : ℝ := (if wavenumber then (size : ℝ) else 1) / c

/-- The frequencies that were fitted. -/
noncomputable def fitted (low high : ℝ) (bins : List (ℝ × ℝ)) : List (ℝ × ℝ) := bins.filter fun b => low < b.1 ∧ b.1 ≤ high

end Spec

private theorem clip_dec (low high v : ℝ) : clipFunc low high (some v) = decide (low < v ∧ v ≤ high) := by
  unfold clipFunc
  by_cases h1 : low < v <;> by_cases h2 : v ≤ high <;> simp [h1, h2]

private theorem pspec_eq (s : Spatial) (unit : SUnit) (c a b : ℝ) (h : Spec.PixelSize s unit c) (size : ℕ) (low high : ℝ)
    (bins : List (ℝ × ℝ)) (w r : Bool) :
    pspecPlot s (.line a b) size low high bins unit w r = .ok
      { points := bins.map fun q => (log10 (q.1 * Spec.axisFactor w size c), some (log10 q.2))
        curve := (Spec.fitted low high bins).map fun q =>
          (log10 (q.1 * Spec.axisFactor w size c), a + b * log10 (q.1 * Spec.axisFactor w size c))
        limits := (log10 (low * Spec.axisFactor w size c), log10 (high * Spec.axisFactor w size c))
        resid := if r then some (bins.map fun q => (log10 (q.1 * Spec.axisFactor w size c), some (log10 q.2 - (a + b * log10 q.1))))
          else none } := by
  have hax : ∀ f : ℝ, (if w then f * (size : ℝ) else f) / c = f * Spec.axisFactor w size c := by
    intro f; unfold Spec.axisFactor; cases w <;> simp <;> ring
  have hlim : ∀ f : ℝ, (if w then f / c * (size : ℝ) else f / c) = f * Spec.axisFactor w size c := by
    intro f; unfold Spec.axisFactor; cases w <;> simp <;> ring
  unfold pspecPlot
  rw [mapM_all_ok _ (fun q => q.1 * Spec.axisFactor w size c) bins (fun q _ => by
    rw [(C96_unit s unit c h _).2.2, hax])]
  simp only [bind, Except.bind, fittedModel, (C96_unit s unit c h _).2.2, pspecCurve, pure, Except.pure, hlim, List.map_map]
  rw [zip_map_self, zip_self_map, zip_maps]
  simp only [List.map_map, Function.comp_def]
  congr 2
  rw [Spec.fitted]
  rw [List.filter_map, List.map_map]
  simp only [Function.comp_def, clip_dec]

/-- Power spectra: points, limits and residuals are right in every unit, also with wavenumbers: the residuals are log power minus the
logarithm of the fitted power law at the frequency per pixel.  Missing for the full claim: the curve (`C96_pspec_curve_partial`,
`C96_pspec_curve_violated`) and fits with a break (`C96_pspec_break_violated`). -/
theorem C96_pspec_partial (s : Spatial) (unit : SUnit) (c a b : ℝ) (h : Spec.PixelSize s unit c) (size : ℕ) (low high : ℝ)
    (bins : List (ℝ × ℝ)) (hf : ∀ q ∈ bins, 0 < q.1) (w r : Bool) :
    ∃ P, pspecPlot s (.line a b) size low high bins unit w r = .ok P ∧
      P.points = bins.map (fun q => (log10 (q.1 * Spec.axisFactor w size c), some (log10 q.2))) ∧
      P.limits = (log10 (low * Spec.axisFactor w size c), log10 (high * Spec.axisFactor w size c)) ∧
      P.curve.map Prod.fst = (Spec.fitted low high bins).map (fun q => log10 (q.1 * Spec.axisFactor w size c)) ∧
      P.resid = if r then some (bins.map fun q => (log10 (q.1 * Spec.axisFactor w size c),
        some (log10 q.2 - log10 (Spec.powerLaw a b q.1)))) else none := by
  refine ⟨_, pspec_eq s unit c a b h size low high bins w r, rfl, rfl, ?_, ?_⟩
  · simp only [List.map_map, Function.comp_def]
  · cases r with
    | false => rfl
    | true =>
      simp only [if_true]
      congr 1
      apply List.map_congr_left
      intro q hq
      unfold Spec.powerLaw
      rw [log10_rpow (Real.rpow_pos_of_pos (by norm_num) _) (hf q hq)]
      have : log10 ((10 : ℝ) ^ a) = a := by rw [log10, Real.logb_rpow (by norm_num) (by norm_num)]
      rw [this]

/-- The line drawn for a power spectrum, when the axis shows frequencies per pixel: the logarithm of the fitted power law.  Missing for
the full claim: every other axis, where it fails (`C96_pspec_curve_violated`). -/
theorem C96_pspec_curve_partial (s : Spatial) (a b : ℝ) (size : ℕ) (low high : ℝ)
    (bins : List (ℝ × ℝ)) (hf : ∀ q ∈ bins, 0 < q.1) (r : Bool) :
    ∃ P, pspecPlot s (.line a b) size low high bins .pix false r = .ok P ∧
      P.curve = (Spec.fitted low high bins).map fun q => (log10 q.1, log10 (Spec.powerLaw a b q.1)) := by
  refine ⟨_, pspec_eq s .pix 1 a b ⟨by norm_num, rfl⟩ size low high bins false r, ?_⟩
  simp only [Spec.axisFactor]
  apply List.map_congr_left
  intro q hq
  have hq0 := hf q (List.mem_filter.1 hq).1
  unfold Spec.powerLaw
  rw [log10_rpow (Real.rpow_pos_of_pos (by norm_num) _) hq0]
  simp [log10]

/-- On every other axis (a unit in which a pixel is not 1, or wavenumbers) the line is shifted against the data: the fit made in
frequencies per pixel is evaluated at the numbers of the axis.  The shift is the slope times the logarithm of the factor, and not 0
unless the slope is 0 or the factor 1. -/
theorem C96_pspec_curve_violated (s : Spatial) (unit : SUnit) (c a b : ℝ) (h : Spec.PixelSize s unit c) (size : ℕ) (hs : 0 < size)
    (low high : ℝ) (bins : List (ℝ × ℝ)) (hf : ∀ q ∈ bins, 0 < q.1) (w r : Bool) :
    ∃ P, pspecPlot s (.line a b) size low high bins unit w r = .ok P ∧
      P.curve = (Spec.fitted low high bins).map (fun q => (log10 (q.1 * Spec.axisFactor w size c),
        log10 (Spec.powerLaw a b q.1) + b * log10 (Spec.axisFactor w size c))) ∧
      (b * log10 (Spec.axisFactor w size c) = 0 ↔ b = 0 ∨ Spec.axisFactor w size c = 1) := by
  have hk : 0 < Spec.axisFactor w size c := by
    unfold Spec.axisFactor
    refine div_pos ?_ h.1
    split
    · exact_mod_cast hs
    · norm_num
  refine ⟨_, pspec_eq s unit c a b h size low high bins w r, ?_, ?_⟩
  · apply List.map_congr_left
    intro q hq
    have hq0 := hf q (List.mem_filter.1 hq).1
    unfold Spec.powerLaw
    rw [log10_rpow (Real.rpow_pos_of_pos (by norm_num) _) hq0, log10_mul hq0 hk]
    have : log10 ((10 : ℝ) ^ a) = a := by rw [log10, Real.logb_rpow (by norm_num) (by norm_num)]
    rw [this]
    congr 1
    ring
  · rw [mul_eq_zero]
    refine or_congr Iff.rfl ⟨fun h0 => ?_, fun h0 => ?_⟩
    · refine log10_inj hk (by norm_num) ?_
      rw [h0]; simp [log10]
    · rw [h0]; simp [log10]

/-- After a successful fit with a break no plot can be made at all: the line is predicted from two columns with four coefficients. -/
theorem C96_pspec_break_violated (s : Spatial) (unit : SUnit) (c : ℝ) (h : Spec.PixelSize s unit c) (p0 p1 p2 p3 brk : ℝ) (size : ℕ)
    (low high : ℝ) (bins : List (ℝ × ℝ)) (w r : Bool) :
    pspecPlot s (.broken [p0, p1, p2, p3, brk] brk) size low high bins unit w r = .error .valueError := by
  unfold pspecPlot
  by_cases hb : bins = []
  · subst hb
    simp [fittedModel, segModel, bind, Except.bind]
  · have : ∃ m, fittedModel (.broken [p0, p1, p2, p3, brk] brk) (bins.map fun b => log10 b.1) = .ok m := by
      simp only [fittedModel, segModel]
      rw [if_neg (by simpa using hb)]
      exact ⟨_, rfl⟩
    obtain ⟨m, hm⟩ := this
    rw [hm]
    simp only [bind, Except.bind]
    rw [mapM_all_ok _ (fun q => (if w then q.1 * (size : ℝ) else q.1) / c) bins (fun q _ => (C96_unit s unit c h _).2.2)]
    rfl

/-- A power spectrum with a fitted and an unfitted frequency, in units of half a pixel and with wavenumbers. -/
example : Spec.PixelSize (spStat 2 1 3 1) (.angle 1) 2 ∧ Spec.fitted 0.1 0.3 [(0.2, 5), (0.4, 3)] = [(0.2, 5)] ∧
    Spec.axisFactor true 16 2 = 8 := by
  refine ⟨⟨by norm_num, ?_⟩, ?_, by norm_num [Spec.axisFactor]⟩
  · change Except.ok _ = Except.ok _
    congr 2
    norm_num
  · norm_num [Spec.fitted]

/-! ### VCS -/

/-- VCS without a good break (parameters: intercept, slope, break; the break is the largest fitted frequency): the curve follows the
fitted power law at the fitted frequencies, points and limits are in the unit of the axis.  Missing for the full claim: the residuals
beyond the fitted range, which are wrong (`C96_vcs_resid_violated`), and fits with a break (see C12). -/
theorem C96_vcs_partial (c p0 p1 brk low high : ℝ) (hc : 0 < c) (bins : List (ℝ × ℝ)) (hf : ∀ q ∈ bins, 0 < q.1)
    (hb : brk ∈ (Spec.fitted low high bins).map fun q => log10 q.1) (hmax : ∀ q ∈ Spec.fitted low high bins, log10 q.1 ≤ brk) :
    ∃ P, vcsPlot c [p0, p1, brk] brk low high bins false = .ok P ∧ P.points = bins.map (fun q => (q.1 / c, some q.2)) ∧
      P.curve = (Spec.fitted low high bins).map (fun q => (q.1 / c, Spec.powerLaw p0 p1 q.1)) ∧ P.limits = (low / c, high / c) := by
  have hm := (C12_failed_fit_partial p0 p1 brk _ hb (by
    intro v hv
    obtain ⟨q, hq, rfl⟩ := List.mem_map.1 hv
    exact hmax q hq)).2
  refine ⟨{ points := bins.map (fun q => (q.1 / c, some q.2))
            curve := (Spec.fitted low high bins).map (fun q => (q.1 / c, Spec.powerLaw p0 p1 q.1))
            limits := (low / c, high / c)
            resid := none }, ?_, rfl, rfl, rfl⟩
  unfold vcsPlot
  have hm' : segModel [p0, p1, brk] brk ((bins.filter fun b => decide (low < b.1 ∧ b.1 ≤ high)).map fun b => log10 b.1) = _ := hm
  simp only [clip_dec, vcsResid, bind, Except.bind, pure, Except.pure, hm', Bool.false_eq_true, if_false]
  congr 2
  rw [List.map_map]
  change (((Spec.fitted low high bins).zip ((Spec.fitted low high bins).map _)).map _) = _
  rw [zip_self_map, List.map_map]
  apply List.map_congr_left
  intro q hq
  simp only [Function.comp_def]
  rw [ten_pow p0 p1 _ (hf q (List.mem_filter.1 hq).1)]

/-- VCS residuals of a fit without a good break: right up to the largest fitted frequency, and wrong at every higher one, because the
break is read as a change of slope: the model is multiplied by `10 ^ (brk (log f - brk))`, which is 1 only for a break at frequency 1. -/
theorem C96_vcs_resid_violated (c p0 p1 brk low high : ℝ) (bins : List (ℝ × ℝ)) (hf : ∀ q ∈ bins, 0 < q.1)
    (hb : brk ∈ (Spec.fitted low high bins).map fun q => log10 q.1) :
    ∃ P, vcsPlot c [p0, p1, brk] brk low high bins true = .ok P ∧
      P.resid = some (bins.map fun q => (q.1 / c, some (q.2 - (if log10 q.1 ≤ brk then 1 else (10 : ℝ) ^ (brk * (log10 q.1 - brk))) *
        Spec.powerLaw p0 p1 q.1))) ∧
      (brk ≠ 0 → ∀ q ∈ bins, brk < log10 q.1 →
        q.2 - (10 : ℝ) ^ (brk * (log10 q.1 - brk)) * Spec.powerLaw p0 p1 q.1 ≠ q.2 - Spec.powerLaw p0 p1 q.1) := by
  have hb' : brk ∈ bins.map fun q => log10 q.1 := by
    obtain ⟨q, hq, rfl⟩ := List.mem_map.1 hb
    exact List.mem_map.2 ⟨q, (List.mem_filter.1 hq).1, rfl⟩
  have hseg : ∀ k : List ℝ, brk ∈ k → segModel [p0, p1, brk] brk k = .ok (k.map (Spec.brokenLine p0 p1 (brk + p1) brk)) := by
    intro k hk
    obtain ⟨s1, s2, vals, h1, h2, h3⟩ := C12_broken_line_partial p0 p1 brk 0 brk k hk
    have h4 : segSlopes [p0, p1, brk, 0, brk] false = .ok [p1, brk + p1] := rfl
    rw [h4] at h1
    injection h1 with h1
    injection h1 with ha hbb
    injection hbb with hbb
    subst ha hbb h3
    exact h2
  have hm := hseg _ hb'
  have hg := hseg _ hb
  have hval : ∀ q ∈ bins, (10 : ℝ) ^ Spec.brokenLine p0 p1 (brk + p1) brk (log10 q.1) =
      (if log10 q.1 ≤ brk then 1 else (10 : ℝ) ^ (brk * (log10 q.1 - brk))) * Spec.powerLaw p0 p1 q.1 := by
    intro q hq
    have hq0 := hf q hq
    rw [← ten_pow p0 p1 _ hq0]
    unfold Spec.brokenLine
    rcases lt_trichotomy (log10 q.1) brk with h | h | h
    · rw [if_pos h, if_pos h.le, one_mul]
    · rw [if_neg (by linarith), if_pos h.le, one_mul, h]
      congr 1; ring
    · rw [if_neg (by linarith), if_neg (by linarith), ← Real.rpow_add (by norm_num)]
      congr 1; ring
  refine ⟨{ points := bins.map (fun q => (q.1 / c, some q.2))
            curve := (Spec.fitted low high bins).map (fun q => (q.1 / c, (10 : ℝ) ^ Spec.brokenLine p0 p1 (brk + p1) brk (log10 q.1)))
            limits := (low / c, high / c)
            resid := some (bins.map fun q => (q.1 / c,
              some (q.2 - (if log10 q.1 ≤ brk then 1 else (10 : ℝ) ^ (brk * (log10 q.1 - brk))) * Spec.powerLaw p0 p1 q.1))) },
    ?_, rfl, ?_⟩
  · unfold vcsPlot
    have hg' : segModel [p0, p1, brk] brk ((bins.filter fun b => decide (low < b.1 ∧ b.1 ≤ high)).map fun b => log10 b.1) = _ := hg
    simp only [clip_dec, vcsResid, bind, Except.bind, pure, Except.pure, if_true, hm, hg']
    congr 2
    · rw [List.map_map]
      change (((Spec.fitted low high bins).zip ((Spec.fitted low high bins).map _)).map _) = _
      rw [zip_self_map, List.map_map]
      rfl
    · congr 1
      rw [List.map_map, zip_self_map, List.map_map]
      apply List.map_congr_left
      intro q hq
      simp only [Function.comp_def]
      rw [hval q hq]
  · intro hne q hq hlt he
    have hpos : 0 < Spec.powerLaw p0 p1 q.1 := mul_pos (Real.rpow_pos_of_pos (by norm_num) _) (Real.rpow_pos_of_pos (hf q hq) _)
    have h2 : (10 : ℝ) ^ (brk * (log10 q.1 - brk)) * Spec.powerLaw p0 p1 q.1 = 1 * Spec.powerLaw p0 p1 q.1 := by linarith
    exact rpow_ne_one (by norm_num) (by norm_num) (mul_ne_zero hne (by linarith [sub_pos.2 hlt] : log10 q.1 - brk ≠ 0))
      (mul_right_cancel₀ hpos.ne' h2)

/-- A spectrum whose largest fitted frequency is 1/10, with one above it. -/
example : log10 (1 / 10) ∈ (Spec.fitted (1 / 100) (1 / 5) [(1 / 20, 7), (1 / 10, 5), (1 / 4, 3)]).map (fun q => log10 q.1) ∧
    (∀ q ∈ ([(1 / 20, 7), (1 / 10, 5), (1 / 4, 3)] : List (ℝ × ℝ)), 0 < q.1) ∧ log10 (1 / 10) < log10 (1 / 4) ∧ log10 (1 / 10) ≠ 0 ∧
    ∀ q ∈ Spec.fitted (1 / 100) (1 / 5) [(1 / 20, 7), (1 / 10, 5), (1 / 4, 3)], log10 q.1 ≤ log10 (1 / 10) := by
  have h1 : Spec.fitted (1 / 100) (1 / 5) [(1 / 20, 7), (1 / 10, 5), (1 / 4, 3)] = [(1 / 20, 7), (1 / 10, 5)] := by
    norm_num [Spec.fitted]
  rw [h1]
  refine ⟨by simp, ?_, ?_, ?_, ?_⟩
  · intro q hq
    simp only [List.mem_cons, List.not_mem_nil, or_false] at hq
    rcases hq with rfl | rfl | rfl <;> norm_num
  · exact Real.logb_lt_logb (by norm_num) (by norm_num) (by norm_num)
  · have : log10 (1 / 10) < log10 1 := Real.logb_lt_logb (by norm_num) (by norm_num) (by norm_num)
    have h0 : log10 1 = 0 := by simp [log10]
    linarith
  · intro q hq
    simp only [List.mem_cons, List.not_mem_nil, or_false] at hq
    rcases hq with rfl | rfl
    · exact (log10_le_iff (by norm_num) (by norm_num)).2 (by norm_num)
    · exact le_refl _

end TS
