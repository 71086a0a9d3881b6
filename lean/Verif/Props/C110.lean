import Verif.Lemmas.ResidBoot
import Mathlib.Tactic.NormNum
import Mathlib.Tactic.FinCases

/-!
C110. Bootstrapped errors of a fit.

With `bootstrap=True` the reported errors should be the spread of the fitted parameters over resamplings of the residuals, for the fit that
was made.  `ols` is any regression (`Spec.Regression`); `draws` are the resamplings, any index maps; one can be drawn when no index is the
last one (C10).
-/

namespace TS
open Spec

variable {n p : ℕ}

/-! ### Unweighted fits -/

/-- Equal weights: the error of each parameter is the spread of that parameter over the least-squares fits to (fitted curve + resampled
residuals).  Partial: the last residual is never drawn (C10), and other weights are not covered (see below). -/
theorem C110_unweighted_partial {ols : Ols} (ho : Regression ols) (X : Fin n → Fin p → ℝ) (y : Fin n → ℝ) (hX : Independent X)
    (draws : List (Fin n → Fin n)) (hn : 2 ≤ n) (hd : 2 ≤ draws.length) :
    ∃ errs, residualBootstrap ols ⟨X, y, fun _ => 1⟩ draws = .ok (.perParam errs) ∧
      ∀ β, IsLsq X y β → ∀ S : (Fin n → Fin n) → Fin p → ℝ,
        (∀ d ∈ draws, IsLsq X (fun i => predict X β i + (y (d i) - predict X β (d i))) (S d)) →
        ∀ j, IsSpread (draws.map fun d => S d j) (errs j) := by
  refine ⟨_, residualBootstrap_two ols _ hn hd, fun β hβ S hS j => ?_⟩
  set m : LinModel n p := ⟨X, y, fun _ => 1⟩ with hm
  have hwe : m.wexog = X := by funext i k; simp [LinModel.wexog, hm]
  have hwy : m.wendog = y := by funext i; simp [LinModel.wendog, hm]
  have hp : m.params ols = β := by
    simp only [LinModel.params, hwe, hwy]; exact boot_lsq_unique hX (ho n p X y) hβ
  have hr : ∀ i, m.wresid ols i = y i - predict X β i := by
    intro i; rw [wresid_eq, hp, hwe, hwy]
  have e : (draws.map fun d => S d j) = draws.map fun d => bootSample ols m d j := by
    apply List.map_congr_left
    intro d hdd
    have hN := normal_comb 1 1 (lsq_normal (hS d hdd)) (normal_comb 1 (-1) (lsq_normal hβ) (normal_exact X β))
    have := ols_eq ho hX hN
    have h2 : bootSample ols m d = S d := by
      have ey : (fun i => m.wendog i + m.wresid ols (d i)) = fun i => 1 * (predict X β i + (y (d i) - predict X β (d i)))
          + 1 * (1 * y i + -1 * predict X β i) := by
        funext i; rw [hr, hwy]; ring
      rw [bootSample, ey, show m.exog = X from rfl, this]
      funext k; ring
    rw [h2]
  rw [e]
  exact bootStd_spread _

/-- Data that the curve fits exactly have no bootstrapped error, whatever the weights and draws. -/
theorem C110_exact_data {ols : Ols} (ho : Regression ols) (X : Fin n → Fin p → ℝ) (b : Fin p → ℝ) (w : Fin n → ℝ) (hX : Independent X)
    (hw : ∀ i, 0 < w i) (draws : List (Fin n → Fin n)) (hn : 2 ≤ n) (hd : 2 ≤ draws.length) :
    residualBootstrap ols ⟨X, predict X b, w⟩ draws = .ok (.perParam fun _ => 0) := by
  rw [residualBootstrap_two ols _ hn hd]
  congr 2
  funext j
  have h := boot_affine ols ⟨X, fun _ => 0, w⟩ ⟨X, predict X b, w⟩ hd 0
    (fun j => ols n p X (LinModel.wendog ⟨X, predict X b, w⟩) j) (fun d => by
      rw [bootSample]
      have : ∀ i, LinModel.wresid ols ⟨X, predict X b, w⟩ i = 0 := by
        intro i
        have := wresid_affine ho ⟨X, fun _ => 0, w⟩ hX hw one_pos 0 b i
        simpa using this
      simp [this]) j
  simpa using h

/-- Equivariance: scaling the data by `c` and adding any combination of the model's terms scales every error by `|c|`; multiplying all
weights by `k` scales every error by `√k`, although the fitted parameters do not depend on `k`. -/
theorem C110_equivariant {ols : Ols} (ho : Regression ols) (X : Fin n → Fin p → ℝ) (y w : Fin n → ℝ) (hX : Independent X)
    (hw : ∀ i, 0 < w i) (k : ℝ) (hk : 0 < k) (c : ℝ) (b : Fin p → ℝ) (draws : List (Fin n → Fin n)) (hn : 2 ≤ n)
    (hd : 2 ≤ draws.length) :
    ∃ errs, residualBootstrap ols ⟨X, y, w⟩ draws = .ok (.perParam errs) ∧
      residualBootstrap ols ⟨X, fun i => c * y i + predict X b i, fun i => k * w i⟩ draws = .ok (.perParam fun j => √k * |c| * errs j) ∧
      LinModel.params ols ⟨X, fun i => c * y i + predict X b i, fun i => k * w i⟩
        = fun j => c * LinModel.params ols ⟨X, y, w⟩ j + b j := by
  refine ⟨_, residualBootstrap_two ols _ hn hd, ?_, params_affine ho ⟨X, y, w⟩ hX hw hk c b⟩
  rw [residualBootstrap_two ols _ hn hd]
  obtain ⟨s, hs⟩ := bootSample_affine ho ⟨X, y, w⟩ hX hw hk c b
  congr 2
  funext j
  rw [boot_affine ols ⟨X, y, w⟩ _ hd (√k * c) s hs j, abs_mul, abs_of_nonneg (Real.sqrt_nonneg k)]

/-! ### Weighted fits -/

/-- The fit is the weighted one, and every resampled fit is the *unweighted* fit of the original design to data multiplied by the square
roots of the weights. -/
theorem C110_weighted {ols : Ols} (ho : Regression ols) (X : Fin n → Fin p → ℝ) (y w : Fin n → ℝ) (hw : ∀ i, 0 ≤ w i)
    (draws : List (Fin n → Fin n)) (hn : 2 ≤ n) :
    ∃ β, LinModel.params ols ⟨X, y, w⟩ = β ∧ IsWlsq X w y β ∧ ∃ S : (Fin n → Fin n) → Fin p → ℝ,
      bootSamples ols ⟨X, y, w⟩ draws = .ok (draws.map S) ∧
      ∀ d, IsLsq X (fun i => √(w i) * y i + √(w (d i)) * (y (d i) - predict X β (d i))) (S d) := by
  refine ⟨_, rfl, params_wlsq ho ⟨X, y, w⟩ hw, bootSample ols ⟨X, y, w⟩, ?_, fun d => ?_⟩
  · have : ¬ (n ≤ 1 ∧ draws ≠ []) := by omega
    simp [bootSamples, this]
  · have := ho n p X (fun i => LinModel.wendog ⟨X, y, w⟩ i + LinModel.wresid ols ⟨X, y, w⟩ (d i))
    have e : (fun i => LinModel.wendog ⟨X, y, w⟩ i + LinModel.wresid ols ⟨X, y, w⟩ (d i))
        = fun i => √(w i) * y i + √(w (d i)) * (y (d i) - predict X (LinModel.params ols ⟨X, y, w⟩) (d i)) := by
      funext i
      rw [wresid_eq, predict_wexog]; simp only [LinModel.wendog]; ring
    rw [← e]
    exact this

/-- Exact data with one common weight `k`: every resampled fit returned with `return_samps=True` is `√k` times the fitted parameters. -/
theorem C110_samples_off_violated {ols : Ols} (ho : Regression ols) (X : Fin n → Fin p → ℝ) (b : Fin p → ℝ) (hX : Independent X)
    (k : ℝ) (hk : 0 < k) (draws : List (Fin n → Fin n)) (hn : 2 ≤ n) :
    LinModel.params ols ⟨X, predict X b, fun _ => k⟩ = b ∧
      bootSamples ols ⟨X, predict X b, fun _ => k⟩ draws = .ok (draws.map fun _ => fun j => √k * b j) := by
  have hz : Normal X (fun _ => 0) (fun _ => 0) := by intro v; simp [predict]
  have hp := params_affine ho ⟨X, fun _ => 0, fun _ => 1⟩ hX (fun _ => one_pos) hk 0 b
  have hr := wresid_affine ho ⟨X, fun _ => 0, fun _ => 1⟩ hX (fun _ => one_pos) hk 0 b
  simp only [zero_mul, zero_add, mul_one, mul_zero] at hp hr
  refine ⟨hp, ?_⟩
  have : ¬ (n ≤ 1 ∧ draws ≠ []) := by omega
  simp only [bootSamples, this, if_false]
  congr 1
  apply List.map_congr_left
  intro d _
  rw [bootSample]
  have hN := normal_comb (√k) 0 (normal_exact X b) hz
  have e : (fun i => LinModel.wendog ⟨X, predict X b, fun _ => k⟩ i + LinModel.wresid ols ⟨X, predict X b, fun _ => k⟩ (d i))
      = fun i => √k * predict X b i + 0 * 0 := by
    funext i
    have : LinModel.wresid ols ⟨X, predict X b, fun _ => k⟩ (d i) = 0 := hr (d i)
    rw [this]; simp [LinModel.wendog]
  rw [e, show (LinModel.exog ⟨X, predict X b, fun _ => k⟩) = X from rfl, ols_eq ho hX hN]
  funext j; ring

/-! ### A concrete case -/

/-- Resampling by the first residual everywhere. -/
def drawA (n : ℕ) (i : Fin n) : Fin n := ⟨0, by have := i.isLt; omega⟩

/-- The same except that the third point gets the second residual. -/
def drawB (n : ℕ) (i : Fin n) : Fin n := ⟨if i.val = 2 then 1 else 0, by have := i.isLt; split <;> omega⟩

/-- Both can be drawn for three points. -/
example : (∀ i, (drawA 3 i).val < 3 - 1) ∧ ∀ i, (drawB 3 i).val < 3 - 1 := by decide

theorem line3_independent : Independent (lineDesign ![(0 : ℝ), 1, 2]) :=
  line_independent _ (i := 0) (j := 1) (by simp)

/-- Three points 0, 3, 0 with unit weights: the reported slope error is 3/4. -/
theorem C110_three_points {ols : Ols} (ho : Regression ols) :
    bootSlopeErr ols ![0, 1, 2] ![0, 3, 0] (fun _ => 1) [drawA 3, drawB 3] = .ok (3 / 4) := by
  rw [bootSlopeErr_eq ols _ _ _ (by norm_num) (by simp)]
  set m : LinModel 3 2 := ⟨lineDesign ![0, 1, 2], ![0, 3, 0], fun _ => 1⟩ with hm
  have hwe : m.wexog = lineDesign ![0, 1, 2] := by funext i k; simp [LinModel.wexog, hm]
  have hwy : m.wendog = ![0, 3, 0] := by funext i; simp [LinModel.wendog, hm]
  have hp : m.params ols = ![1, 0] := by
    simp only [LinModel.params, hwe, hwy]
    apply ols_eq ho line3_independent
    intro v
    simp [predict, lineDesign, Fin.sum_univ_succ]; ring
  have hr : m.wresid ols = ![-1, 2, -1] := by
    funext i
    rw [wresid_eq, hp, hwe, hwy]
    fin_cases i <;> simp [predict, lineDesign, Fin.sum_univ_succ] <;> norm_num
  have hA : bootSample ols m (drawA 3) = ![0, 0] := by
    rw [bootSample, hwy, hr]
    apply ols_eq ho line3_independent
    intro v
    simp [predict, lineDesign, Fin.sum_univ_succ, drawA]; ring
  have hB : bootSample ols m (drawB 3) = ![-1 / 2, 3 / 2] := by
    rw [bootSample, hwy, hr]
    apply ols_eq ho line3_independent
    intro v
    simp [predict, lineDesign, Fin.sum_univ_succ, drawB]; ring
  simp only [List.map_cons, List.map_nil, hA, hB, Except.ok.injEq]
  refine spread_unique (bootStd_spread _) ⟨by norm_num, ?_⟩
  simp [sampleMean]; norm_num

/-- So the error does depend on a common factor of the weights, on which the fit does not depend. -/
theorem C110_weight_factor_violated {ols : Ols} (ho : Regression ols) :
    ¬ ∀ (x y w : Fin 3 → ℝ) (k : ℝ) (draws : List (Fin 3 → Fin 3)), (∀ i, 0 < w i) → 0 < k →
      (∀ d ∈ draws, ∀ i, (d i).val < 3 - 1) → bootSlopeErr ols x y (fun i => k * w i) draws = bootSlopeErr ols x y w draws := by
  intro h
  have := h ![0, 1, 2] ![0, 3, 0] (fun _ => 1) 4 [drawA 3, drawB 3] (fun _ => one_pos) (by norm_num)
    (by intro d hd; simp only [List.mem_cons, List.not_mem_nil, or_false] at hd; rcases hd with rfl | rfl <;> decide)
  rw [C110_three_points ho] at this
  obtain ⟨errs, h1, h2, -⟩ := C110_equivariant ho (lineDesign ![(0 : ℝ), 1, 2]) ![0, 3, 0] (fun _ => 1) line3_independent
    (fun _ => one_pos) 4 (by norm_num) 1 (fun _ => 0) [drawA 3, drawB 3] (by norm_num) (by simp)
  have e0 := C110_three_points ho
  simp only [bootSlopeErr, h1, bind, Except.bind, BootOut.at, Except.ok.injEq] at e0
  have hy : (fun i => 1 * (![0, 3, 0] : Fin 3 → ℝ) i + predict (lineDesign ![(0 : ℝ), 1, 2]) (fun _ => 0) i) = ![0, 3, 0] := by
    funext i; simp [predict]
  rw [hy] at h2
  simp only [bootSlopeErr, h2, bind, Except.bind, BootOut.at, Except.ok.injEq, e0] at this
  have h4 : √(4 : ℝ) = 2 := by rw [show (4 : ℝ) = 2 ^ 2 by norm_num]; exact Real.sqrt_sq (by norm_num)
  rw [h4] at this
  norm_num at this

/-! ### Delta-variance -/

/-- The delta-variance is a variance: when the image is multiplied by `√c`, its values and errors are multiplied by `c`. -/
def rescaleCurve (c : ℝ) (pts : List LagPt) : List LagPt :=
  pts.map fun q => ⟨q.lag, q.value.map (c * ·), q.err.map (c * ·)⟩

theorem bootListErr_eq (ols : Ols) (l : List (ℝ × ℝ × ℝ)) (draws : ∀ n, List (Fin n → Fin n)) {n : ℕ} (hn : l.length = n)
    (x y w : Fin n → ℝ) (h : ∀ i : Fin n, l.get (i.cast hn.symm) = (x i, y i, w i)) :
    bootListErr ols l draws = bootSlopeErr ols x y w (draws n) := by
  subst hn
  have hx : (fun i => (l.get i).1) = x := by funext i; have := h i; simp at this; simp [this]
  have hy : (fun i => (l.get i).2.1) = y := by funext i; have := h i; simp at this; simp [this]
  have hw : (fun i => (l.get i).2.2) = w := by funext i; have := h i; simp at this; simp [this]
  rw [bootListErr, hx, hy, hw]

theorem lagFitPoints_rescale {c : ℝ} (hc : 0 < c) (xlow xhigh : Option ℝ) (pts : List LagPt)
    (hp : ∀ q ∈ pts, ∃ v e, q.value = some v ∧ 0 < v ∧ q.err = some e ∧ e ≠ 0) :
    lagFitPoints .invSqErr 1 xlow xhigh (rescaleCurve c pts)
      = (lagFitPoints .invSqErr 1 xlow xhigh pts).map fun t => (t.1, 1 * t.2.1 + log10 c, (1 / c ^ 2) * t.2.2) := by
  induction pts with
  | nil => simp [lagFitPoints, rescaleCurve, lagSelect, dropMissing]
  | cons q l ih =>
    have ih' := ih (fun q hq => hp q (List.mem_cons_of_mem _ hq))
    obtain ⟨v, e, hv, hv0, he, he0⟩ := hp q List.mem_cons_self
    have hcv : ¬ c * v < 0 := not_lt.mpr (mul_pos hc hv0).le
    have hcv' : c * v ≠ 0 := (mul_pos hc hv0).ne'
    have hce : c * e ≠ 0 := mul_ne_zero hc.ne' he0
    have hlog : log10 (c * v) = log10 v + log10 c := by
      simp only [log10]; rw [Real.logb_mul hc.ne' hv0.ne']; ring
    have hwt : 1 / (c * e) ^ 2 = (1 / c ^ 2) * (1 / e ^ 2) := by field_simp
    simp only [lagFitPoints, rescaleCurve, lagSelect, dropMissing, List.map_cons, List.filter_cons] at ih' ⊢
    split_ifs with hs
    · simp only [List.map_cons, List.filter_cons, lagWeight, invSqF, log10F, hv, he, Option.map_some, hcv, hcv', hce, he0, hv0.ne',
        not_lt.mpr hv0.le, if_false, FVal.isNan] at ih' ⊢
      split_ifs with h1 h2 h3 <;> simp_all [FVal.val, FVal.isNan]
    · exact ih'

/-- Delta-variance: the bootstrapped error of the slope is divided by `c` when the image is multiplied by `√c`, although the slope itself
does not change (last part of `C110_equivariant`). -/
theorem C110_deltavar_unit {ols : Ols} (ho : Regression ols) (c : ℝ) (hc : 0 < c) (xlow xhigh : Option ℝ) (pts : List LagPt)
    (hp : ∀ q ∈ pts, ∃ v e, q.value = some v ∧ 0 < v ∧ q.err = some e ∧ e ≠ 0)
    (hx : ∃ i j, ((lagFitPoints .invSqErr 1 xlow xhigh pts).get i).1 ≠ ((lagFitPoints .invSqErr 1 xlow xhigh pts).get j).1)
    (hpos : ∀ t ∈ lagFitPoints .invSqErr 1 xlow xhigh pts, 0 < t.2.2)
    (draws : ∀ n, List (Fin n → Fin n)) (hd : ∀ n, 2 ≤ (draws n).length) :
    ∃ e, deltavarBootErr ols xlow xhigh pts draws = .ok e ∧ deltavarBootErr ols xlow xhigh (rescaleCurve c pts) draws = .ok (e / c) := by
  set l := lagFitPoints .invSqErr 1 xlow xhigh pts with hl
  obtain ⟨i, j, hij⟩ := hx
  have hn : 2 ≤ l.length := by
    have : i ≠ j := fun h => hij (by rw [h])
    have := Fin.val_ne_of_ne this
    omega
  have hI : Independent (lineDesign fun i => (l.get i).1) := line_independent _ hij
  obtain ⟨errs, h1, h2, -⟩ := C110_equivariant ho (lineDesign fun i => (l.get i).1) (fun i => (l.get i).2.1) (fun i => (l.get i).2.2) hI
    (fun i => hpos _ (List.get_mem l i)) (1 / c ^ 2) (by positivity) 1 ![log10 c, 0] (draws l.length) hn (hd _)
  refine ⟨errs 1, ?_, ?_⟩
  · have e : deltavarBootErr ols xlow xhigh pts draws = bootListErr ols l draws := rfl
    rw [e]
    simp only [bootListErr, bootSlopeErr, h1, bind, Except.bind, BootOut.at]
  · rw [deltavarBootErr, lagFitPoints_rescale hc xlow xhigh pts hp, ← hl,
      bootListErr_eq ols _ draws (n := l.length) (by simp) (fun i => (l.get i).1) (fun i => 1 * (l.get i).2.1 + log10 c)
        (fun i => (1 / c ^ 2) * (l.get i).2.2) (by intro i; simp)]
    have hy : (fun i => 1 * (l.get i).2.1 + log10 c)
        = fun i => 1 * (l.get i).2.1 + predict (lineDesign fun i => (l.get i).1) ![log10 c, 0] i := by
      funext i; simp [predict, lineDesign, Fin.sum_univ_two]
    rw [bootSlopeErr, hy, h2]
    have hs : √(1 / c ^ 2) = 1 / c := by
      rw [show 1 / c ^ 2 = (1 / c) ^ 2 by ring]; exact Real.sqrt_sq (by positivity)
    simp only [bind, Except.bind, BootOut.at, hs, abs_one]
    congr 1; ring

/-- Lags 1, 10, 100 with values 1, 1000, 1 and errors 1. -/
def sampleCurve : List LagPt := [⟨1, some 1, some 1⟩, ⟨10, some 1000, some 1⟩, ⟨100, some 1, some 1⟩]

theorem sampleCurve_points : lagFitPoints .invSqErr 1 none none sampleCurve = [(0, 0, 1), (1, 3, 1), (2, 0, 1)] := by
  have h10 : log10 10 = 1 := by simp [log10]
  have h100 : log10 100 = 2 := by
    rw [log10, show (100 : ℝ) = 10 ^ 2 by norm_num, Real.logb_pow]; simp
  have h1000 : log10 1000 = 3 := by
    rw [log10, show (1000 : ℝ) = 10 ^ 3 by norm_num, Real.logb_pow]; simp
  have h1 : log10 1 = 0 := by simp [log10]
  have n1 : ¬ ((1000 : ℝ) < 0) := by norm_num
  have n2 : ¬ ((10 : ℝ) < 0) := by norm_num
  have n3 : ¬ ((100 : ℝ) < 0) := by norm_num
  have n4 : ¬ ((1 : ℝ) < 0) := by norm_num
  simp [lagFitPoints, lagSelect, dropMissing, sampleCurve, log10F, lagWeight, invSqF, FVal.isNan, FVal.val, h10, h100, h1000, h1,
    n1, n2, n3, n4]

/-- In two brightness units the same curve gets slope errors 3/4 and 3/8. -/
theorem C110_deltavar_unit_violated {ols : Ols} (ho : Regression ols) :
    deltavarBootErr ols none none sampleCurve (fun n => [drawA n, drawB n]) = .ok (3 / 4) ∧
      deltavarBootErr ols none none (rescaleCurve 2 sampleCurve) (fun n => [drawA n, drawB n]) = .ok (3 / 8) := by
  have h0 : deltavarBootErr ols none none sampleCurve (fun n => [drawA n, drawB n]) = .ok (3 / 4) := by
    rw [deltavarBootErr, sampleCurve_points, bootListErr_eq ols _ _ (n := 3) (by simp) ![0, 1, 2] ![0, 3, 0] (fun _ => 1)
      (by intro i; fin_cases i <;> rfl)]
    exact C110_three_points ho
  refine ⟨h0, ?_⟩
  obtain ⟨e, h1, h2⟩ := C110_deltavar_unit ho 2 (by norm_num) none none sampleCurve
    (by intro q hq; simp only [sampleCurve, List.mem_cons, List.not_mem_nil, or_false] at hq
        rcases hq with rfl | rfl | rfl
        · exact ⟨1, 1, rfl, by norm_num, rfl, by norm_num⟩
        · exact ⟨1000, 1, rfl, by norm_num, rfl, by norm_num⟩
        · exact ⟨1, 1, rfl, by norm_num, rfl, by norm_num⟩)
    (by rw [sampleCurve_points]; exact ⟨⟨0, by simp⟩, ⟨1, by simp⟩, by simp⟩)
    (by rw [sampleCurve_points]; intro t ht; simp only [List.mem_cons, List.not_mem_nil, or_false] at ht
        rcases ht with rfl | rfl | rfl <;> norm_num)
    (fun n => [drawA n, drawB n]) (by simp)
  rw [h0] at h1
  rw [h2, ← Except.ok.inj h1]
  congr 1; norm_num

/-! ### Fits with a break -/

/-- With a break the reported errors are the spreads of the first slope, of the *change* of slope and of the break coefficient. -/
theorem C110_break_errors (ols : Ols) (brk : ℝ) (x y w : Fin n → ℝ) (draws : List (Fin n → Fin n)) (hn : 2 ≤ n)
    (hd : 2 ≤ draws.length) : ∃ S : (Fin n → Fin n) → Fin 4 → ℝ, ∃ e1 e2 e3,
      bootSamples ols ⟨segDesign brk x, y, w⟩ draws = .ok (draws.map S) ∧
      bootBreakErrs ols brk x y w draws = .ok ([e1, e2], e3) ∧
      IsSpread (draws.map fun d => S d 1) e1 ∧ IsSpread (draws.map fun d => S d 2) e2 ∧ IsSpread (draws.map fun d => S d 3) e3 := by
  refine ⟨bootSample ols ⟨segDesign brk x, y, w⟩, _, _, _, ?_, ?_, bootStd_spread _, bootStd_spread _, bootStd_spread _⟩
  · have : ¬ (n ≤ 1 ∧ draws ≠ []) := by omega
    simp [bootSamples, this]
  · simp [bootBreakErrs, residualBootstrap_two ols _ hn hd, bind, Except.bind, pure, Except.pure, pySlice1m1, List.finRange_succ]

/-- Six points, break at 5/2; the resampling changes the line left of the break only. -/
def segX : Fin 6 → ℝ := ![0, 1, 2, 3, 4, 5]
def segY : Fin 6 → ℝ := ![0, 3, 0, 0, 0, 0]
def segA : Fin 6 → Fin 6 := fun _ => 3
def segB : Fin 6 → Fin 6 := ![0, 0, 1, 3, 3, 3]

/-- Both can be drawn. -/
example : (∀ i, (segA i).val < 6 - 1) ∧ ∀ i, (segB i).val < 6 - 1 := by decide

theorem seg_rows : segDesign (5 / 2) segX
    = ![![1, 0, 0, 0], ![1, 1, 0, 0], ![1, 2, 0, 0], ![1, 3, 1 / 2, -1], ![1, 4, 3 / 2, -1], ![1, 5, 5 / 2, -1]] := by
  funext i k
  fin_cases i <;> fin_cases k <;> simp [segDesign, segX] <;> norm_num

theorem seg_independent : Independent (segDesign (5 / 2) segX) := by
  intro b hb
  rw [seg_rows] at hb
  have h0 := hb 0
  have h1 := hb 1
  have h3 := hb 3
  have h4 := hb 4
  simp [predict, Fin.sum_univ_succ] at h0 h1 h3 h4
  have e0 : b 0 = 0 := h0
  have e1 : b 1 = 0 := by have := h1; rw [e0] at this; simpa using this
  have e1' : b (Fin.succ 0) = 0 := e1
  have e2 : b 2 = 0 := by
    simp only [e0, e1] at h3 h4
    have a3 := h3; have a4 := h4
    norm_num at a3 a4
    linarith
  have e3 : b 3 = 0 := by
    simp only [e0, e1, e2] at h3
    norm_num at h3
    linarith
  funext k
  fin_cases k
  · exact e0
  · exact e1
  · exact e2
  · exact e3

/-- The second slope (first slope plus change) is the same in every resampled fit, its spread is 0, and the error reported for it is
3/4. -/
theorem C110_second_slope_violated {ols : Ols} (ho : Regression ols) : ∃ S : (Fin 6 → Fin 6) → Fin 4 → ℝ, ∃ e1 e3,
    bootSamples ols ⟨segDesign (5 / 2) segX, segY, fun _ => 1⟩ [segA, segB] = .ok ([segA, segB].map S) ∧
      bootBreakErrs ols (5 / 2) segX segY (fun _ => 1) [segA, segB] = .ok ([e1, 3 / 4], e3) ∧
      IsSpread ([segA, segB].map fun d => S d 1 + S d 2) 0 := by
  set m : LinModel 6 4 := ⟨segDesign (5 / 2) segX, segY, fun _ => 1⟩ with hm
  have hwe : m.wexog = segDesign (5 / 2) segX := by funext i k; simp [LinModel.wexog, hm]
  have hwy : m.wendog = segY := by funext i; simp [LinModel.wendog, hm]
  have hp : m.params ols = ![1, 0, 0, 1] := by
    simp only [LinModel.params, hwe, hwy]
    apply ols_eq ho seg_independent
    intro v
    rw [seg_rows]
    simp [predict, segY, Fin.sum_univ_succ]; ring
  have hr : m.wresid ols = ![-1, 2, -1, 0, 0, 0] := by
    funext i
    rw [wresid_eq, hp, hwe, hwy, seg_rows]
    fin_cases i <;> simp [predict, segY, Fin.sum_univ_succ] <;> norm_num
  have hA : bootSample ols m segA = ![1, 0, 0, 1] := by
    rw [bootSample, hwy, hr]
    apply ols_eq ho seg_independent
    intro v
    rw [seg_rows]
    simp [predict, segY, segA, Fin.sum_univ_succ]; ring
  have hB : bootSample ols m segB = ![-1 / 2, 3 / 2, -3 / 2, 13 / 4] := by
    rw [bootSample, hwy, hr]
    apply ols_eq ho seg_independent
    intro v
    rw [seg_rows]
    simp [predict, segY, segB, Fin.sum_univ_succ]; ring
  obtain ⟨S, e1, e2, e3, h1, h2, -, h4, -⟩ :=
    C110_break_errors ols (5 / 2) segX segY (fun _ => 1) [segA, segB] (by norm_num) (by simp)
  have hS : [segA, segB].map S = [segA, segB].map (bootSample ols m) := by
    have : bootSamples ols m [segA, segB] = .ok ([segA, segB].map (bootSample ols m)) := by simp [bootSamples]
    rw [h1] at this
    exact Except.ok.inj this
  simp only [List.map_cons, List.map_nil, List.cons.injEq, and_true] at hS
  have he2 : e2 = 3 / 4 := by
    refine spread_unique h4 ⟨by norm_num, ?_⟩
    simp [sampleMean, hS.1, hS.2, hA, hB]; norm_num
  refine ⟨S, e1, e3, h1, he2 ▸ h2, le_refl _, ?_⟩
  simp [sampleMean, hS.1, hS.2, hA, hB]; norm_num

/-! ### Too few resamplings or points -/

/-- Fewer than two resamplings (`nboot` 0 or 1): no error is reported, the fit raises IndexError. -/
theorem C110_few_draws_violated (ols : Ols) (x y w : Fin n → ℝ) (draws : List (Fin n → Fin n)) (hn : 2 ≤ n) (hd : draws.length < 2) :
    bootSlopeErr ols x y w draws = .error .indexError := by
  have : ¬ (n ≤ 1 ∧ draws ≠ []) := by omega
  match draws, hd with
  | [], _ => simp [bootSlopeErr, residualBootstrap, bootSamples, bind, Except.bind, pure, Except.pure, BootOut.at]
  | [a], _ =>
    have h1 : ¬ n ≤ 1 := by omega
    simp [bootSlopeErr, residualBootstrap, bootSamples, h1, bind, Except.bind, pure, Except.pure, BootOut.at]

/-- A single point is refused. -/
theorem C110_single_point (ols : Ols) (x y w : Fin 1 → ℝ) (draws : List (Fin 1 → Fin 1)) (hd : draws ≠ []) :
    bootSlopeErr ols x y w draws = .error .valueError := by
  simp [bootSlopeErr, residualBootstrap, bootSamples, hd, bind, Except.bind]

/-! ### The hypotheses can be met -/

/-- There are regressions, independent designs, and drawable resamplings: the theorems above apply to this case. -/
example : ∃ ols : Ols, Regression ols ∧ Independent (lineDesign ![(0 : ℝ), 1, 2]) ∧
    bootSlopeErr ols ![0, 1, 2] ![0, 3, 0] (fun _ => 1) [drawA 3, drawB 3] = .ok (3 / 4) := by
  obtain ⟨ols, h⟩ := exists_regression
  exact ⟨ols, h, line3_independent, C110_three_points h⟩

end TS
