import Mathlib.Analysis.SpecialFunctions.ImproperIntegrals
import Mathlib.Analysis.SpecialFunctions.Integrability.Basic
import Mathlib.Analysis.Normed.Algebra.Exponential
import Mathlib.Analysis.SpecialFunctions.Exponential
import Mathlib.MeasureTheory.Integral.IntegralEqImproper
import Mathlib.MeasureTheory.Measure.OpenPos
import Mathlib.Algebra.BigOperators.Ring.Finset

/-! The fourth root of the squared Euclidean distance (the square root of the distance) is strictly of
negative type: the fact behind the non-negativity of the Cramer (energy) statistic. -/

namespace TS
open Finset MeasureTheory

variable {ι κ : Type*}

/-- Squared Euclidean distance of two points with coordinates in `K`. -/
def sqDist (K : Finset κ) (x y : κ → ℝ) : ℝ := ∑ k ∈ K, (x k - y k) ^ 2

theorem sqDist_nonneg (K : Finset κ) (x y : κ → ℝ) : 0 ≤ sqDist K x y :=
  sum_nonneg (fun _ _ => sq_nonneg _)

theorem sqDist_comm (K : Finset κ) (x y : κ → ℝ) : sqDist K x y = sqDist K y x := by
  unfold sqDist
  exact sum_congr rfl (fun _ _ => by ring)

theorem sqDist_self (K : Finset κ) (x : κ → ℝ) : sqDist K x x = 0 := by
  unfold sqDist; simp

theorem sqDist_eq_zero {K : Finset κ} {x y : κ → ℝ} : sqDist K x y = 0 ↔ ∀ k ∈ K, x k = y k := by
  unfold sqDist
  rw [sum_eq_zero_iff_of_nonneg (fun _ _ => sq_nonneg _)]
  constructor
  · intro h k hk
    have := h k hk
    exact sub_eq_zero.1 (pow_eq_zero_iff (by norm_num) |>.1 this)
  · intro h k hk
    rw [h k hk]; simp

/-- Powers of an inner product are positive semi-definite. -/
theorem inner_pow_psd (I : Finset ι) (K : Finset κ) (a : ι → ℝ) (x : ι → κ → ℝ) (N : ℕ) :
    0 ≤ ∑ i ∈ I, ∑ j ∈ I, a i * a j * (∑ k ∈ K, x i k * x j k) ^ N := by
  classical
  have h : ∑ i ∈ I, ∑ j ∈ I, a i * a j * (∑ k ∈ K, x i k * x j k) ^ N =
      ∑ p ∈ Fintype.piFinset fun _ : Fin N => K, (∑ i ∈ I, a i * ∏ t, x i (p t)) ^ 2 := by
    have h1 : ∀ p ∈ Fintype.piFinset fun _ : Fin N => K, (∑ i ∈ I, a i * ∏ t, x i (p t)) ^ 2 =
        ∑ i ∈ I, ∑ j ∈ I, a i * a j * ∏ t, (x i (p t) * x j (p t)) := by
      intro p _
      rw [sq, sum_mul_sum]
      refine sum_congr rfl (fun i _ => sum_congr rfl (fun j _ => ?_))
      rw [prod_mul_distrib]; ring
    rw [Finset.sum_congr rfl h1]
    symm
    rw [Finset.sum_comm]
    refine sum_congr rfl (fun i _ => ?_)
    rw [sum_comm]
    refine sum_congr rfl (fun j _ => ?_)
    rw [sum_pow' K (fun k => x i k * x j k) N, mul_sum]
  rw [h]
  exact sum_nonneg (fun _ _ => sq_nonneg _)

/-- The Gaussian kernel is positive semi-definite. -/
theorem gauss_psd (I : Finset ι) (K : Finset κ) (a : ι → ℝ) (x : ι → κ → ℝ) {s : ℝ} (hs : 0 ≤ s) :
    0 ≤ ∑ i ∈ I, ∑ j ∈ I, a i * a j * Real.exp (-(s * sqDist K (x i) (x j))) := by
  set b : ι → ℝ := fun i => a i * Real.exp (-(s * ∑ k ∈ K, x i k ^ 2)) with hb
  have hterm : ∀ i j, a i * a j * Real.exp (-(s * sqDist K (x i) (x j))) =
      b i * b j * Real.exp (2 * s * ∑ k ∈ K, x i k * x j k) := by
    intro i j
    have : -(s * sqDist K (x i) (x j)) = -(s * ∑ k ∈ K, x i k ^ 2) + -(s * ∑ k ∈ K, x j k ^ 2) +
        2 * s * ∑ k ∈ K, x i k * x j k := by
      unfold sqDist
      simp only [mul_sum, ← sum_neg_distrib, ← sum_add_distrib]
      exact sum_congr rfl (fun k _ => by ring)
    rw [this, Real.exp_add, Real.exp_add]
    simp only [hb]; ring
  simp only [hterm]
  have hsum : HasSum (fun N : ℕ => ∑ i ∈ I, ∑ j ∈ I,
      b i * b j * ((2 * s * ∑ k ∈ K, x i k * x j k) ^ N / (N.factorial : ℝ)))
      (∑ i ∈ I, ∑ j ∈ I, b i * b j * Real.exp (2 * s * ∑ k ∈ K, x i k * x j k)) := by
    refine hasSum_sum (fun i _ => hasSum_sum (fun j _ => HasSum.mul_left _ ?_))
    rw [Real.exp_eq_exp_ℝ]
    exact NormedSpace.expSeries_div_hasSum_exp _
  refine hsum.nonneg (fun N => ?_)
  have : ∑ i ∈ I, ∑ j ∈ I, b i * b j * ((2 * s * ∑ k ∈ K, x i k * x j k) ^ N / (N.factorial : ℝ)) =
      (2 * s) ^ N / (N.factorial : ℝ) * ∑ i ∈ I, ∑ j ∈ I, b i * b j * (∑ k ∈ K, x i k * x j k) ^ N := by
    simp only [mul_sum (s := I)]
    exact sum_congr rfl (fun i _ => sum_congr rfl (fun j _ => by rw [mul_pow]; ring))
  rw [this]
  exact mul_nonneg (by positivity) (inner_pow_psd I K b x N)

/-- The integrand of the representation of the fourth root. -/
noncomputable def rootKer (t s : ℝ) : ℝ := (1 - Real.exp (-(s * t))) * s ^ (-(5 / 4) : ℝ)

theorem rootKer_nonneg {t s : ℝ} (ht : 0 ≤ t) (hs : 0 < s) : 0 ≤ rootKer t s := by
  unfold rootKer
  apply mul_nonneg
  · have : Real.exp (-(s * t)) ≤ 1 := Real.exp_le_one_iff.2 (by nlinarith [mul_nonneg hs.le ht])
    linarith
  · exact Real.rpow_nonneg hs.le _

theorem rootKer_continuousOn (t : ℝ) : ContinuousOn (rootKer t) (Set.Ioi 0) := by
  unfold rootKer
  apply ContinuousOn.mul
  · fun_prop
  · intro s hs
    exact (Real.continuousAt_rpow_const s _ (Or.inl (ne_of_gt hs))).continuousWithinAt

theorem rootKer_integrable {t : ℝ} (ht : 0 ≤ t) : IntegrableOn (rootKer t) (Set.Ioi 0) := by
  have hsplit : Set.Ioi (0 : ℝ) = Set.Ioc (0 : ℝ) 1 ∪ Set.Ioi 1 := (Set.Ioc_union_Ioi_eq_Ioi zero_le_one).symm
  rw [hsplit]
  apply IntegrableOn.union
  · have h1 : IntegrableOn (fun s : ℝ => t * s ^ (-(1 / 4) : ℝ)) (Set.Ioc 0 1) := by
      have := (intervalIntegral.intervalIntegrable_rpow' (a := 0) (b := 1) (r := -(1 / 4)) (by norm_num))
      rw [intervalIntegrable_iff_integrableOn_Ioc_of_le zero_le_one] at this
      exact this.const_mul t
    refine Integrable.mono' h1 ?_ ?_
    · exact ((rootKer_continuousOn t).mono Set.Ioc_subset_Ioi_self).aestronglyMeasurable measurableSet_Ioc
    · refine (ae_restrict_iff' measurableSet_Ioc).2 (Filter.Eventually.of_forall (fun s hs => ?_))
      rw [Real.norm_of_nonneg (rootKer_nonneg ht hs.1)]
      unfold rootKer
      have h2 : 1 - Real.exp (-(s * t)) ≤ s * t := by
        have := Real.add_one_le_exp (-(s * t)); linarith
      calc (1 - Real.exp (-(s * t))) * s ^ (-(5 / 4) : ℝ) ≤ (s * t) * s ^ (-(5 / 4) : ℝ) :=
            mul_le_mul_of_nonneg_right h2 (Real.rpow_nonneg hs.1.le _)
        _ = t * (s ^ (1 : ℝ) * s ^ (-(5 / 4) : ℝ)) := by rw [Real.rpow_one]; ring
        _ = t * s ^ (-(1 / 4) : ℝ) := by
            rw [← Real.rpow_add hs.1]; norm_num
  · have h1 : IntegrableOn (fun s : ℝ => s ^ (-(5 / 4) : ℝ)) (Set.Ioi 1) :=
      integrableOn_Ioi_rpow_of_lt (by norm_num) one_pos
    refine Integrable.mono' h1 ?_ ?_
    · exact ((rootKer_continuousOn t).mono (Set.Ioi_subset_Ioi zero_le_one)).aestronglyMeasurable measurableSet_Ioi
    · refine (ae_restrict_iff' measurableSet_Ioi).2 (Filter.Eventually.of_forall (fun s hs => ?_))
      have hs0 : (0 : ℝ) < s := lt_trans one_pos hs
      rw [Real.norm_of_nonneg (rootKer_nonneg ht hs0)]
      unfold rootKer
      have := Real.exp_pos (-(s * t))
      have h3 := Real.rpow_nonneg hs0.le (-(5 / 4) : ℝ)
      nlinarith

/-- The constant of the representation. -/
noncomputable def rootConst : ℝ := ∫ s in Set.Ioi 0, rootKer 1 s

theorem rootConst_pos : 0 < rootConst := by
  unfold rootConst
  rw [setIntegral_pos_iff_support_of_nonneg_ae _ (rootKer_integrable zero_le_one)]
  · have : Function.support (rootKer 1) ∩ Set.Ioi (0 : ℝ) = Set.Ioi 0 := by
      apply Set.inter_eq_right.2
      intro s hs
      have h1 : Real.exp (-(s * 1)) < 1 := Real.exp_lt_one_iff.2 (by have : (0 : ℝ) < s := hs; linarith)
      have h2 : 0 < s ^ (-(5 / 4) : ℝ) := Real.rpow_pos_of_pos hs _
      exact ne_of_gt (mul_pos (by linarith) h2)
    rw [this]; simp
  · exact (ae_restrict_iff' measurableSet_Ioi).2
      (Filter.Eventually.of_forall (fun s hs => rootKer_nonneg zero_le_one hs))

/-- `∫ (1 - e^{-ts}) s^{-5/4} ds` is a positive multiple of the fourth root of `t`. -/
theorem rootKer_integral {t : ℝ} (ht : 0 ≤ t) :
    ∫ s in Set.Ioi 0, rootKer t s = rootConst * t ^ (1 / 4 : ℝ) := by
  rcases ht.eq_or_lt with rfl | ht
  · have : rootKer 0 = fun _ => 0 := by funext s; unfold rootKer; simp
    rw [this]; simp
  · have h := integral_comp_mul_left_Ioi (rootKer 1) 0 ht
    rw [mul_zero] at h
    have h2 : ∫ s in Set.Ioi 0, rootKer 1 (t * s) = t ^ (-(5 / 4) : ℝ) * ∫ s in Set.Ioi 0, rootKer t s := by
      rw [← integral_const_mul]
      refine setIntegral_congr_fun measurableSet_Ioi (fun s hs => ?_)
      unfold rootKer
      rw [Real.mul_rpow ht.le (le_of_lt hs), mul_one, mul_comm t s]
      ring
    rw [h2] at h
    have h3 : t ^ (-(5 / 4) : ℝ) ≠ 0 := (Real.rpow_pos_of_pos ht _).ne'
    apply mul_left_cancel₀ h3
    rw [h]
    unfold rootConst
    have h4 : t ^ (-(5 / 4) : ℝ) * t ^ (1 / 4 : ℝ) = t⁻¹ := by
      rw [← Real.rpow_add ht, ← Real.rpow_neg_one]; norm_num
    rw [smul_eq_mul, ← h4]; ring

variable (I : Finset ι) (K : Finset κ) (a : ι → ℝ) (x : ι → κ → ℝ)

/-- The Gaussian form at inverse width `s`. -/
noncomputable def gaussForm (s : ℝ) : ℝ :=
  ∑ i ∈ I, ∑ j ∈ I, a i * a j * Real.exp (-(s * sqDist K (x i) (x j)))

/-- The form in the fourth root of the squared distance. -/
noncomputable def rootForm : ℝ :=
  ∑ i ∈ I, ∑ j ∈ I, a i * a j * (sqDist K (x i) (x j)) ^ (1 / 4 : ℝ)

theorem gaussForm_ker (ha : ∑ i ∈ I, a i = 0) (s : ℝ) :
    ∑ i ∈ I, ∑ j ∈ I, a i * a j * rootKer (sqDist K (x i) (x j)) s =
      -(gaussForm I K a x s * s ^ (-(5 / 4) : ℝ)) := by
  have h0 : ∑ i ∈ I, ∑ j ∈ I, a i * a j = 0 := by
    rw [← sum_mul_sum, ha, zero_mul]
  have : ∑ i ∈ I, ∑ j ∈ I, a i * a j * rootKer (sqDist K (x i) (x j)) s =
      (∑ i ∈ I, ∑ j ∈ I, a i * a j) * s ^ (-(5 / 4) : ℝ) - gaussForm I K a x s * s ^ (-(5 / 4) : ℝ) := by
    unfold gaussForm rootKer
    simp only [sum_mul, ← sum_sub_distrib]
    exact sum_congr rfl (fun i _ => sum_congr rfl (fun j _ => by ring))
  rw [this, h0]; ring

theorem rootForm_integral (ha : ∑ i ∈ I, a i = 0) :
    IntegrableOn (fun s => gaussForm I K a x s * s ^ (-(5 / 4) : ℝ)) (Set.Ioi 0) ∧
    rootConst * rootForm I K a x = -∫ s in Set.Ioi 0, gaussForm I K a x s * s ^ (-(5 / 4) : ℝ) := by
  have hint : ∀ i ∈ I, ∀ j ∈ I,
      IntegrableOn (fun s => a i * a j * rootKer (sqDist K (x i) (x j)) s) (Set.Ioi 0) :=
    fun i _ j _ => (rootKer_integrable (sqDist_nonneg K _ _)).const_mul _
  have hint2 : ∀ i ∈ I, IntegrableOn (fun s => ∑ j ∈ I, a i * a j * rootKer (sqDist K (x i) (x j)) s) (Set.Ioi 0) :=
    fun i hi => integrable_finsetSum _ (fun j hj => hint i hi j hj)
  have hall : IntegrableOn (fun s => ∑ i ∈ I, ∑ j ∈ I, a i * a j * rootKer (sqDist K (x i) (x j)) s) (Set.Ioi 0) :=
    integrable_finsetSum _ hint2
  simp only [gaussForm_ker I K a x ha] at hall
  refine ⟨by simpa using hall.neg, ?_⟩
  rw [← integral_neg]
  simp only [← gaussForm_ker I K a x ha]
  rw [integral_finsetSum _ hint2]
  unfold rootForm
  rw [mul_sum]
  refine sum_congr rfl (fun i hi => ?_)
  rw [integral_finsetSum _ (hint i hi), mul_sum]
  refine sum_congr rfl (fun j hj => ?_)
  rw [integral_const_mul, rootKer_integral (sqDist_nonneg K _ _)]
  ring

/-- Negative type: with weights summing to zero the form is not positive. -/
theorem rootForm_nonpos (ha : ∑ i ∈ I, a i = 0) : rootForm I K a x ≤ 0 := by
  obtain ⟨_, h⟩ := rootForm_integral I K a x ha
  have : 0 ≤ ∫ s in Set.Ioi 0, gaussForm I K a x s * s ^ (-(5 / 4) : ℝ) :=
    setIntegral_nonneg measurableSet_Ioi
      (fun s hs => mul_nonneg (gauss_psd I K a x (le_of_lt hs)) (Real.rpow_nonneg (le_of_lt hs) _))
  by_contra hneg
  have := mul_pos rootConst_pos (not_le.1 hneg)
  linarith

/-- Strictness: the form vanishes only when the weights cancel at every point. -/
theorem rootForm_eq_zero (ha : ∑ i ∈ I, a i = 0) (h : rootForm I K a x = 0) :
    ∑ i ∈ I, ∑ j ∈ I, (if sqDist K (x i) (x j) = 0 then a i * a j else 0) = 0 := by
  obtain ⟨hint, hi⟩ := rootForm_integral I K a x ha
  rw [h, mul_zero, eq_comm, neg_eq_zero] at hi
  rw [setIntegral_eq_zero_iff_of_nonneg_ae _ hint] at hi
  swap
  · exact (ae_restrict_iff' measurableSet_Ioi).2 (Filter.Eventually.of_forall (fun s hs =>
      mul_nonneg (gauss_psd I K a x (le_of_lt hs)) (Real.rpow_nonneg (le_of_lt hs) _)))
  have hcont : Continuous (gaussForm I K a x) := by unfold gaussForm; fun_prop
  have hon : Set.EqOn (fun s => gaussForm I K a x s * s ^ (-(5 / 4) : ℝ)) 0 (Set.Ioi 0) := by
    refine Measure.eqOn_open_of_ae_eq hi isOpen_Ioi ?_ continuousOn_const
    apply hcont.continuousOn.mul
    intro s hs
    exact (Real.continuousAt_rpow_const s _ (Or.inl (ne_of_gt hs))).continuousWithinAt
  have hz : ∀ s ∈ Set.Ioi (0 : ℝ), gaussForm I K a x s = 0 := by
    intro s hs
    have := hon hs
    simp only [Pi.zero_apply] at this
    exact (mul_eq_zero.1 this).resolve_right (Real.rpow_pos_of_pos hs _).ne'
  have hlim : Filter.Tendsto (gaussForm I K a x) Filter.atTop
      (nhds (∑ i ∈ I, ∑ j ∈ I, (if sqDist K (x i) (x j) = 0 then a i * a j else 0))) := by
    unfold gaussForm
    refine tendsto_finsetSum _ (fun i _ => tendsto_finsetSum _ (fun j _ => ?_))
    split_ifs with hq
    · simp [hq]
    · have hq' : 0 < sqDist K (x i) (x j) := lt_of_le_of_ne (sqDist_nonneg _ _ _) (Ne.symm hq)
      have : Filter.Tendsto (fun s : ℝ => Real.exp (-(s * sqDist K (x i) (x j)))) Filter.atTop (nhds 0) :=
        Real.tendsto_exp_neg_atTop_nhds_zero.comp (Filter.tendsto_id.atTop_mul_const hq')
      simpa using this.const_mul (a i * a j)
  refine tendsto_nhds_unique hlim ?_
  refine tendsto_const_nhds.congr' ?_
  filter_upwards [Filter.eventually_gt_atTop 0] with s hs using (hz s hs).symm

open Classical in
/-- When the form vanishes, the weights of all indices at one point cancel. -/
theorem rootForm_mass (ha : ∑ i ∈ I, a i = 0) (h : rootForm I K a x = 0) (p : κ → ℝ) :
    ∑ i ∈ I with (∀ k ∈ K, x i k = p k), a i = 0 := by
  set y : ι → (κ → ℝ) := fun i k => if k ∈ K then x i k else 0 with hy
  have hyeq : ∀ i j, sqDist K (x i) (x j) = 0 ↔ y i = y j := by
    intro i j
    rw [sqDist_eq_zero]
    constructor
    · intro h; funext k
      simp only [hy]
      split_ifs with hk
      · exact h k hk
      · rfl
    · intro h k hk
      have := congrFun h k
      simpa [hy, hk] using this
  have h0 := rootForm_eq_zero I K a x ha h
  have hsq : ∑ i ∈ I, ∑ j ∈ I, (if sqDist K (x i) (x j) = 0 then a i * a j else 0) =
      ∑ q ∈ I.image y, (∑ i ∈ I, if y i = q then a i else 0) ^ 2 := by
    have h1 : ∀ q ∈ I.image y, (∑ i ∈ I, if y i = q then a i else 0) ^ 2 =
        ∑ i ∈ I, ∑ j ∈ I, if y i = q then (if y j = q then a i * a j else 0) else 0 := by
      intro q _
      rw [sq, sum_mul_sum]
      refine Finset.sum_congr rfl (fun i _ => Finset.sum_congr rfl (fun j _ => ?_))
      split_ifs <;> simp
    rw [Finset.sum_congr rfl h1]
    symm
    rw [Finset.sum_comm]
    refine Finset.sum_congr rfl (fun i hi => ?_)
    rw [Finset.sum_comm]
    refine Finset.sum_congr rfl (fun j _ => ?_)
    rw [Finset.sum_ite_eq, if_pos (Finset.mem_image_of_mem y hi)]
    simp only [hyeq, eq_comm]
  rw [hsq, sum_eq_zero_iff_of_nonneg (fun _ _ => sq_nonneg _)] at h0
  set q : κ → ℝ := fun k => if k ∈ K then p k else 0 with hq
  have hfil : ∀ i, (∀ k ∈ K, x i k = p k) ↔ y i = q := by
    intro i
    constructor
    · intro h; funext k
      simp only [hy, hq]
      split_ifs with hk
      · exact h k hk
      · rfl
    · intro h k hk
      have := congrFun h k
      simpa [hy, hq, hk] using this
  rw [Finset.sum_filter]
  simp only [hfil]
  by_cases hm : q ∈ I.image y
  · exact pow_eq_zero_iff (by norm_num) |>.1 (h0 q hm)
  · refine Finset.sum_eq_zero (fun i hi => if_neg (fun e => hm ?_))
    rw [← e]; exact Finset.mem_image_of_mem y hi

end TS
