import Verif.Model.HighMoments
import Mathlib.Tactic.Linarith
import Mathlib.Tactic.Positivity
import Mathlib.Tactic.FieldSimp
import Mathlib.Algebra.Order.Field.Power

/-! C42 — local moments. -/

namespace TS

namespace Spec

/-- Weighted sum of `f x` over (value, weight) pairs. -/
noncomputable def wsum (l : List (ℝ × ℝ)) (f : ℝ → ℝ) : ℝ := (l.map (fun p => p.2 * f p.1)).sum

/-- Weighted average of `f x`. -/
noncomputable def wavg (l : List (ℝ × ℝ)) (f : ℝ → ℝ) : ℝ := wsum l f / wsum l (fun _ => 1)

/-- Weighted mean, variance, and standardised third and fourth moments. -/
noncomputable def wmean (l : List (ℝ × ℝ)) : ℝ := wavg l id
noncomputable def wvar (l : List (ℝ × ℝ)) : ℝ := wavg l (fun x => (x - wmean l) ^ 2)
noncomputable def wskew (l : List (ℝ × ℝ)) : ℝ := wavg l (fun x => ((x - wmean l) / Real.sqrt (wvar l)) ^ 3)
noncomputable def wkurt (l : List (ℝ × ℝ)) : ℝ := wavg l (fun x => ((x - wmean l) / Real.sqrt (wvar l)) ^ 4) - 3

/-- The valid pixels: those whose value and weight are both present. -/
def validPairs (px : List (Option ℝ × Option ℝ)) : List (ℝ × ℝ) :=
  px.filterMap (fun p => match p with
    | (some x, some w) => some (x, w)
    | _ => none)

/-- No pixel has a weight without a value. -/
def WeightsMasked (px : List (Option ℝ × Option ℝ)) : Prop := ∀ p ∈ px, p.1 = none → p.2 = none

/-- Non-negative weights, not all zero. -/
def GoodWeights (l : List (ℝ × ℝ)) : Prop := (∀ p ∈ l, 0 ≤ p.2) ∧ 0 < (l.map (fun p => p.2)).sum

end Spec
open Spec

private theorem nansum_eq (px : List (Option ℝ × Option ℝ)) (g : Option ℝ → Option ℝ → Option ℝ)
    (f : ℝ → ℝ) (hs : ∀ x w, g (some x) (some w) = some (w * f x)) (h1 : ∀ w, g none w = none)
    (h2 : ∀ x, g x none = none) :
    nansum (px.map (fun p => g p.1 p.2)) = wsum (validPairs px) f := by
  unfold nansum validVals wsum validPairs
  induction px with
  | nil => rfl
  | cons p ps ih =>
    obtain ⟨x, w⟩ := p
    cases x with
    | none => simpa [h1] using ih
    | some x =>
      cases w with
      | none => simpa [h2] using ih
      | some w => simpa [hs] using ih

private theorem weight_eq (px : List (Option ℝ × Option ℝ)) (hm : WeightsMasked px) :
    nansum (px.map (fun p => p.2)) = wsum (validPairs px) (fun _ => 1) := by
  unfold nansum validVals wsum validPairs
  induction px with
  | nil => rfl
  | cons p ps ih =>
    have ih := ih (fun q hq => hm q (List.mem_cons_of_mem _ hq))
    have h0 := hm p List.mem_cons_self
    obtain ⟨x, w⟩ := p
    cases x with
    | none =>
      have : w = none := h0 rfl
      subst this
      simpa using ih
    | some x =>
      cases w with
      | none => simpa using ih
      | some w => simpa using ih

private theorem wsum_one (l : List (ℝ × ℝ)) : wsum l (fun _ => 1) = (l.map (fun p => p.2)).sum := by
  unfold wsum; simp

private theorem wsum_congr (l : List (ℝ × ℝ)) (f g : ℝ → ℝ) (h : ∀ p ∈ l, f p.1 = g p.1) :
    wsum l f = wsum l g := by
  unfold wsum
  congr 1
  apply List.map_congr_left
  intro p hp
  rw [h p hp]

private theorem wsum_nonneg (l : List (ℝ × ℝ)) (hw : ∀ p ∈ l, 0 ≤ p.2) (f : ℝ → ℝ) (hf : ∀ x, 0 ≤ f x) :
    0 ≤ wsum l f := by
  unfold wsum
  apply List.sum_nonneg
  intro v hv
  rw [List.mem_map] at hv
  obtain ⟨p, hp, rfl⟩ := hv
  exact mul_nonneg (hw p hp) (hf _)

private theorem wsum_add (l : List (ℝ × ℝ)) (f g : ℝ → ℝ) :
    wsum l (fun x => f x + g x) = wsum l f + wsum l g := by
  unfold wsum
  rw [← List.sum_map_add]
  congr 1
  apply List.map_congr_left
  intro p _
  ring

private theorem wsum_mul (l : List (ℝ × ℝ)) (c : ℝ) (f : ℝ → ℝ) :
    wsum l (fun x => c * f x) = c * wsum l f := by
  unfold wsum
  rw [← List.sum_map_mul_left]
  congr 1
  apply List.map_congr_left
  intro p _
  ring

private theorem wavg_add (l : List (ℝ × ℝ)) (f g : ℝ → ℝ) :
    wavg l (fun x => f x + g x) = wavg l f + wavg l g := by
  unfold wavg; rw [wsum_add, add_div]

private theorem wavg_mul (l : List (ℝ × ℝ)) (c : ℝ) (f : ℝ → ℝ) :
    wavg l (fun x => c * f x) = c * wavg l f := by
  unfold wavg; rw [wsum_mul, mul_div_assoc]

private theorem wavg_const (l : List (ℝ × ℝ)) (hg : GoodWeights l) (c : ℝ) : wavg l (fun _ => c) = c := by
  have h := wavg_mul l c (fun _ => 1)
  simp only [mul_one] at h
  rw [h]
  unfold wavg
  have : wsum l (fun _ => 1) ≠ 0 := by rw [wsum_one]; exact hg.2.ne'
  rw [div_self this, mul_one]

private theorem wavg_nonneg (l : List (ℝ × ℝ)) (hg : GoodWeights l) (f : ℝ → ℝ) (hf : ∀ x, 0 ≤ f x) :
    0 ≤ wavg l f := by
  unfold wavg
  exact div_nonneg (wsum_nonneg l hg.1 f hf) (wsum_nonneg l hg.1 _ (fun _ => zero_le_one))

/-- The result is exactly the weighted moments of the valid pixels, provided no weight is given to a
missing pixel.  Missing for the full property: weights at missing pixels (`C42_missing_pixels_count`) —
and the code's default weights are 1 everywhere. -/
theorem C42_moments_partial (px : List (Option ℝ × Option ℝ)) (hm : WeightsMasked px)
    (hg : GoodWeights (validPairs px)) (hv : 0 < wvar (validPairs px)) :
    computeMoments px = ⟨some (wmean (validPairs px)), some (wvar (validPairs px)),
      some (wskew (validPairs px)), some (wkurt (validPairs px))⟩ := by
  set l := validPairs px with hl
  have hW : nansum (px.map (fun p => p.2)) = wsum l (fun _ => 1) := weight_eq px hm
  have hWne : wsum l (fun _ => 1) ≠ 0 := by rw [wsum_one]; exact hg.2.ne'
  have e1 : nansum (px.map (fun p => mulO p.1 p.2)) = wsum l id :=
    nansum_eq px mulO id (fun x w => by simp [mulO, mul_comm]) (fun w => rfl) (fun x => by cases x <;> rfl)
  have dv : ∀ a : ℝ, divO (some a) (some (wsum l (fun _ => 1))) = some (a / wsum l (fun _ => 1)) := by
    intro a; simp [divO, hWne]
  have e2 : nansum (px.map (fun p => mulO p.2 ((subO p.1 (some (wmean l))).map (· ^ 2)))) =
      wsum l (fun x => (x - wmean l) ^ 2) :=
    nansum_eq px (fun x w => mulO w ((subO x (some (wmean l))).map (· ^ 2))) _
      (fun x w => by simp [mulO, subO]) (fun w => by cases w <;> simp [mulO, subO]) (fun x => by simp [mulO])
  have hsd : Real.sqrt (wvar l) ≠ 0 := (Real.sqrt_pos.2 hv).ne'
  have e3 : ∀ k : ℕ, nansum (px.map (fun p => mulO p.2 ((divO (subO p.1 (some (wmean l)))
      (some (Real.sqrt (wvar l)))).map (· ^ k)))) = wsum l (fun x => ((x - wmean l) / Real.sqrt (wvar l)) ^ k) := by
    intro k
    exact nansum_eq px (fun x w => mulO w ((divO (subO x (some (wmean l))) (some (Real.sqrt (wvar l)))).map (· ^ k))) _
      (fun x w => by simp [mulO, subO, divO, hsd]) (fun w => by cases w <;> simp [mulO, subO, divO])
      (fun x => by simp [mulO])
  have m1 : wsum l id / wsum l (fun _ => 1) = wmean l := rfl
  have m2 : wsum l (fun x => (x - wmean l) ^ 2) / wsum l (fun _ => 1) = wvar l := rfl
  have sq : sqrtO (some (wvar l)) = some (Real.sqrt (wvar l)) := by
    simp [sqrtO, not_lt.2 hv.le]
  unfold computeMoments
  simp only [hW, e1, dv, m1, e2, m2, sq, e3]
  rfl

/-- A region of one value: mean that value, variance and skewness 0, kurtosis -3. -/
theorem C42_constant (px : List (Option ℝ × Option ℝ)) (hm : WeightsMasked px)
    (hg : GoodWeights (validPairs px)) (a : ℝ) (ha : ∀ p ∈ validPairs px, p.1 = a) :
    computeMoments px = ⟨some a, some 0, some 0, some (-3)⟩ := by
  set l := validPairs px with hl
  have hW : nansum (px.map (fun p => p.2)) = wsum l (fun _ => 1) := weight_eq px hm
  have hWne : wsum l (fun _ => 1) ≠ 0 := by rw [wsum_one]; exact hg.2.ne'
  have e1 : nansum (px.map (fun p => mulO p.1 p.2)) = wsum l id :=
    nansum_eq px mulO id (fun x w => by simp [mulO, mul_comm]) (fun w => rfl) (fun x => by cases x <;> rfl)
  have hid : wsum l id = a * wsum l (fun _ => 1) := by
    rw [← wsum_mul]
    apply wsum_congr
    intro p hp
    simp [ha p hp]
  have dv : ∀ a : ℝ, divO (some a) (some (wsum l (fun _ => 1))) = some (a / wsum l (fun _ => 1)) := by
    intro a; simp [divO, hWne]
  have hmean : wsum l id / wsum l (fun _ => 1) = a := by rw [hid]; field_simp
  have e2 : nansum (px.map (fun p => mulO p.2 ((subO p.1 (some a)).map (· ^ 2)))) = 0 := by
    rw [nansum_eq px (fun x w => mulO w ((subO x (some a)).map (· ^ 2))) (fun x => (x - a) ^ 2)
      (fun x w => by simp [mulO, subO]) (fun w => by cases w <;> simp [mulO, subO]) (fun x => by simp [mulO])]
    rw [wsum_congr l _ (fun _ => 0 * 1) (fun p hp => by simp [ha p hp]), wsum_mul, zero_mul]
  have e3 : ∀ k : ℕ, nansum (px.map (fun p => mulO p.2 ((divO (subO p.1 (some a)) (some 0)).map (· ^ k)))) = 0 := by
    intro k
    unfold nansum validVals
    have : (px.map (fun p => mulO p.2 ((divO (subO p.1 (some a)) (some (0 : ℝ))).map (· ^ k)))).filterMap id = [] := by
      rw [List.filterMap_eq_nil_iff]
      intro v hv
      rw [List.mem_map] at hv
      obtain ⟨p, _, rfl⟩ := hv
      obtain ⟨x, w⟩ := p
      cases x <;> cases w <;> simp [divO, subO, mulO]
    rw [this]; rfl
  have z : (0 : ℝ) / wsum l (fun _ => 1) = 0 := zero_div _
  have sq : sqrtO (some 0) = some 0 := by simp [sqrtO]
  unfold computeMoments
  simp only [hW, e1, dv, hmean, e2, z, sq, e3]
  simp [subO]

/-- Laws of the weighted moments: the mean lies in the range of the values, the variance is
non-negative, and the kurtosis is at least skewness² - 2. -/
theorem C42_laws (l : List (ℝ × ℝ)) (hg : GoodWeights l) :
    (∀ lo hi, (∀ p ∈ l, lo ≤ p.1 ∧ p.1 ≤ hi) → lo ≤ wmean l ∧ wmean l ≤ hi) ∧
    0 ≤ wvar l ∧ (0 < wvar l → wskew l ^ 2 - 2 ≤ wkurt l) := by
  have hWpos : 0 < wsum l (fun _ => 1) := by rw [wsum_one]; exact hg.2
  refine ⟨?_, ?_, ?_⟩
  · intro lo hi hb
    unfold wmean wavg
    rw [le_div_iff₀ hWpos, div_le_iff₀ hWpos, ← wsum_mul, ← wsum_mul]
    unfold wsum
    constructor <;>
    · apply List.sum_le_sum
      intro p hp
      have := hb p hp
      simp only [mul_one, id]
      nlinarith [hg.1 p hp]
  · exact wavg_nonneg l hg _ (fun x => sq_nonneg _)
  · intro hv
    set m := wmean l
    set σ := Real.sqrt (wvar l)
    have hσ : 0 < σ := Real.sqrt_pos.2 hv
    have hσ2 : σ ^ 2 = wvar l := Real.sq_sqrt hv.le
    let z : ℝ → ℝ := fun x => (x - m) / σ
    have hz1 : wavg l z = 0 := by
      have : z = fun x => (1 / σ) * (id x + (-m)) := by funext x; simp only [z, id]; ring
      rw [this, wavg_mul, wavg_add, wavg_const l hg]
      simp [m, wmean]
    have hz2 : wavg l (fun x => z x ^ 2) = 1 := by
      have : (fun x => z x ^ 2) = fun x => (1 / σ ^ 2) * (x - m) ^ 2 := by
        funext x; simp only [z, div_pow]; ring
      rw [this, wavg_mul, hσ2]
      show 1 / wvar l * wvar l = 1
      field_simp
    have hs : wavg l (fun x => z x ^ 3) = wskew l := rfl
    have hk : wavg l (fun x => z x ^ 4) - 3 = wkurt l := rfl
    have hq : 0 ≤ wavg l (fun x => (z x ^ 2 - wskew l * z x - 1) ^ 2) :=
      wavg_nonneg l hg _ (fun x => sq_nonneg _)
    have hexp : (fun x => (z x ^ 2 - wskew l * z x - 1) ^ 2) =
        fun x => z x ^ 4 + ((-2 * wskew l) * z x ^ 3 + ((wskew l ^ 2 - 2) * z x ^ 2 +
          ((2 * wskew l) * z x + 1))) := by
      funext x; ring
    rw [hexp, wavg_add, wavg_add, wavg_add, wavg_add, wavg_mul, wavg_mul, wavg_mul, wavg_const l hg, hs, hz2, hz1] at hq
    rw [← hk]
    nlinarith

/-- Under `x -> a x + b` with `a ≠ 0`: the mean becomes `a m + b`, the variance is multiplied by `a²`, the
skewness keeps its size and takes the sign of `a`, the kurtosis is unchanged. -/
theorem C42_affine (l : List (ℝ × ℝ)) (hg : GoodWeights l) (a b : ℝ) (ha : a ≠ 0) :
    let l' := l.map (fun p => (a * p.1 + b, p.2))
    wmean l' = a * wmean l + b ∧ wvar l' = a ^ 2 * wvar l ∧
    wskew l' = (a / |a|) * wskew l ∧ wkurt l' = wkurt l := by
  intro l'
  have key : ∀ f : ℝ → ℝ, wavg l' f = wavg l (fun x => f (a * x + b)) := by
    intro f
    unfold wavg wsum
    simp only [l', List.map_map, Function.comp_def]
  have hmean : wmean l' = a * wmean l + b := by
    unfold wmean
    rw [key]
    show wavg l (fun x => a * id x + b) = _
    rw [wavg_add l (fun x => a * id x) (fun _ => b), wavg_mul, wavg_const l hg]
  have hvar : wvar l' = a ^ 2 * wvar l := by
    unfold wvar
    rw [key, hmean, ← wavg_mul]
    congr 1
    funext x
    ring
  have hz : ∀ x, (a * x + b - wmean l') / Real.sqrt (wvar l') =
      (a / |a|) * ((x - wmean l) / Real.sqrt (wvar l)) := by
    intro x
    rw [hmean, hvar, Real.sqrt_mul (sq_nonneg a), Real.sqrt_sq_eq_abs]
    rw [div_mul_div_comm]
    congr 1
    ring
  have hs2 : (a / |a|) ^ 2 = 1 := by
    rw [div_pow, sq_abs, div_self (pow_ne_zero 2 ha)]
  refine ⟨hmean, hvar, ?_, ?_⟩
  · unfold wskew
    rw [key, ← wavg_mul]
    congr 1
    funext x
    rw [hz x, mul_pow, pow_succ (a / |a|) 2, hs2, one_mul]
  · unfold wkurt
    rw [key]
    congr 2
    funext x
    rw [hz x, mul_pow, show (a / |a|) ^ 4 = ((a / |a|) ^ 2) ^ 2 by ring, hs2, one_pow, one_mul]

/-- The same of what is returned: rescaling the values by `x -> a x + b` transforms the four moments of the
region accordingly. -/
theorem C42_returned_affine (px : List (Option ℝ × Option ℝ)) (hm : WeightsMasked px) (hg : GoodWeights (validPairs px))
    (hv : 0 < wvar (validPairs px)) (a b : ℝ) (ha : a ≠ 0) :
    ∃ m v s k, computeMoments px = ⟨some m, some v, some s, some k⟩ ∧ 0 < v ∧ s ^ 2 - 2 ≤ k ∧
      (∀ lo hi, (∀ x w, (some x, some w) ∈ px → lo ≤ x ∧ x ≤ hi) → lo ≤ m ∧ m ≤ hi) ∧
      computeMoments (px.map (fun p => (p.1.map (fun x => a * x + b), p.2))) =
        ⟨some (a * m + b), some (a ^ 2 * v), some (if 0 < a then s else -s), some k⟩ := by
  have e : validPairs (px.map (fun p => (p.1.map (fun x => a * x + b), p.2))) =
      (validPairs px).map (fun p => (a * p.1 + b, p.2)) := by
    unfold validPairs
    rw [List.filterMap_map, List.map_filterMap]
    apply List.filterMap_congr
    rintro ⟨x, w⟩ -
    cases x <;> cases w <;> rfl
  obtain ⟨l1, l2, l3⟩ := C42_laws _ hg
  obtain ⟨a1, a2, a3, a4⟩ := C42_affine _ hg a b ha
  refine ⟨_, _, _, _, C42_moments_partial px hm hg hv, hv, l3 hv, ?_, ?_⟩
  · intro lo hi h
    refine l1 lo hi ?_
    rintro ⟨x, w⟩ hp
    unfold validPairs at hp
    rw [List.mem_filterMap] at hp
    obtain ⟨⟨x', w'⟩, h1, h2⟩ := hp
    cases x' <;> cases w' <;> simp at h2
    obtain ⟨rfl, rfl⟩ := h2
    exact h _ _ h1
  · rw [C42_moments_partial, e, a1, a2, a3, a4]
    · congr 2
      split_ifs with h
      · rw [abs_of_pos h, div_self ha, one_mul]
      · rw [abs_of_neg (lt_of_le_of_ne (not_lt.1 h) ha), div_neg, div_self ha, neg_one_mul]
    · intro p hp h
      obtain ⟨q, hq, rfl⟩ := List.mem_map.1 hp
      exact hm q hq (Option.map_eq_none_iff.1 h)
    · rw [e]
      refine ⟨?_, ?_⟩
      · intro p hp
        obtain ⟨q, hq, rfl⟩ := List.mem_map.1 hp
        exact hg.1 q hq
      · rw [List.map_map]; exact hg.2
    · rw [e, a2]; exact mul_pos (by positivity) hv

/-- How missing pixels influence the mean, in general: the weighted mean of the valid pixels is multiplied
by the share of the total weight that they hold (the default weights are 1 for every pixel). -/
theorem C42_mean_diluted_violated (px : List (Option ℝ × Option ℝ)) (hg : GoodWeights (validPairs px))
    (hW : 0 < (px.filterMap (fun p => p.2)).sum) :
    (computeMoments px).mean = some (wmean (validPairs px) *
      (((validPairs px).map (fun p => p.2)).sum / (px.filterMap (fun p => p.2)).sum)) := by
  have h1 := nansum_eq px (fun x w => mulO x w) id (fun x w => by simp [mulO, mul_comm]) (fun w => rfl) (fun x => by cases x <;> rfl)
  have h2 : nansum (px.map (fun p => p.2)) = (px.filterMap (fun p => p.2)).sum := by
    unfold nansum validVals
    rw [List.filterMap_map]; rfl
  have h3 : wsum (validPairs px) (fun _ => 1) = ((validPairs px).map (fun p => p.2)).sum := by
    unfold wsum; simp
  unfold computeMoments
  simp only [h1, h2]
  unfold wmean wavg
  rw [h3, div_mul_div_cancel₀ hg.2.ne']
  show (if (px.filterMap (fun p => p.2)).sum = 0 then none else some _) = _
  rw [if_neg hW.ne']

/-- Missing pixels do influence the result: a missing pixel with weight 1 (the default) halves the mean
of a region with one valid pixel of value 2 and gives it a variance. -/
theorem C42_missing_pixels_count :
    (computeMoments [(some 2, some 1), (none, some 1)]).mean = some 1 ∧
    (computeMoments [(some 2, some 1), (none, some 1)]).variance = some (1 / 2) ∧
    (computeMoments [(some 2, some 1)]).mean = some 2 ∧
    (computeMoments [(some 2, some 1)]).variance = some 0 := by
  norm_num [computeMoments, nansum, validVals, mulO, divO, subO, List.filterMap_cons]

/-- Non-vacuity: a region with a missing pixel of weight 1. -/
example : GoodWeights (validPairs [(some 2, some 1), (none, some 1)]) ∧
    0 < (([(some 2, some 1), (none, some 1)] : List (Option ℝ × Option ℝ)).filterMap (fun p => p.2)).sum := by
  refine ⟨⟨?_, ?_⟩, ?_⟩
  · intro p hp; simp [validPairs] at hp; subst hp; norm_num
  · norm_num [validPairs, List.filterMap_cons]
  · norm_num [List.filterMap_cons]

/-- Non-vacuity: three pixels of which one is missing (and unweighted). -/
example : WeightsMasked [(some 1, some 1), (none, none), (some 3, some 2)] ∧
    GoodWeights (validPairs [(some 1, some 1), (none, none), (some 3, some 2)]) ∧
    0 < wvar (validPairs [(some 1, some 1), (none, none), (some 3, some 2)]) := by
  refine ⟨?_, ⟨?_, ?_⟩, ?_⟩
  · intro p hp; simp at hp; rcases hp with rfl | rfl | rfl <;> simp
  · intro p hp; simp [validPairs] at hp; rcases hp with rfl | rfl <;> norm_num
  · norm_num [validPairs, List.filterMap_cons]
  · norm_num [validPairs, wvar, wmean, wavg, wsum, List.filterMap_cons]

end TS
