import Verif.Model.DeltaVariance
import Mathlib.Tactic.Linarith

/-! C40 — the wavelet transform's values are means of the positive convolved pixels. -/

namespace TS
open Finset

namespace Spec

/-- `v` is the mean of the entries of `l` that are strictly positive. -/
def MeanOfPositive (l : List ℝ) (v : ℝ) : Prop :=
  (∃ x ∈ l, 0 < x) ∧
    v * ((l.filter (fun x => decide (0 < x))).length : ℝ) = (l.filter (fun x => decide (0 < x))).sum

/-- The Mexican-hat wavelet of unit width. -/
noncomputable def mexicanHat (x y : ℝ) : ℝ :=
  (1 - (x ^ 2 + y ^ 2) / 2) * Real.exp (-(x ^ 2 + y ^ 2) / 2) / Real.pi

/-- Sum over the image (missing pixels count 0) of its values times the wavelet `g` around pixel `(i, j)`. -/
noncomputable def transformAt (g : ℝ → ℝ → ℝ) (img : Arr2 (Option ℝ)) (i j : ℕ) : ℝ :=
  ∑ u ∈ range img.n, ∑ v ∈ range img.m, g ((i : ℝ) - u) ((j : ℝ) - v) * (img.get u v).getD 0

end Spec

private theorem sum_pos_of {l : List ℝ} (h : ∀ x ∈ l, 0 < x) (hne : l ≠ []) : 0 < l.sum := by
  induction l with
  | nil => exact absurd rfl hne
  | cons x xs ih =>
    rw [List.sum_cons]
    by_cases hx : xs = []
    · subst hx; simpa using h x (by simp)
    · exact add_pos (h x (by simp)) (ih (fun y hy => h y (by simp [hy])) hx)

/-- The value is NaN exactly when no convolved pixel is positive; otherwise it is positive and is the mean
of the positive convolved pixels. -/
theorem C40_value (psi : ℕ → ℕ → ℕ → ℕ → ℝ) (sn : Bool) (an : ℝ) (img : Arr2 (Option ℝ)) :
    (waveletValue psi sn an img = none ↔ ∀ x ∈ (waveletMap psi sn an img).ravel, x ≤ 0) ∧
    ∀ v, waveletValue psi sn an img = some v →
      0 < v ∧ Spec.MeanOfPositive (waveletMap psi sn an img).ravel v := by
  unfold waveletValue
  set l := (waveletMap psi sn an img).ravel
  have hnil : l.filter (fun v => decide (0 < v)) = [] ↔ ∀ x ∈ l, x ≤ 0 := by
    rw [List.filter_eq_nil_iff]
    simp
  constructor
  · rw [← hnil]
    unfold meanO
    cases hl : l.filter (fun v => decide (0 < v)) <;> simp
  · intro v hv
    have hpos : ∀ x ∈ l.filter (fun v => decide (0 < v)), 0 < x := by
      intro x hx; simpa using (List.mem_filter.1 hx).2
    have hne : l.filter (fun v => decide (0 < v)) ≠ [] := by
      intro h; rw [h] at hv; simp [meanO] at hv
    have hlen : (0 : ℝ) < ((l.filter (fun v => decide (0 < v))).length : ℝ) := by
      exact_mod_cast List.length_pos_iff.2 hne
    have hval : v = (l.filter (fun v => decide (0 < v))).sum /
        ((l.filter (fun v => decide (0 < v))).length : ℝ) := by
      unfold meanO at hv
      cases hl : l.filter (fun v => decide (0 < v)) with
      | nil => exact absurd hl hne
      | cons x xs => rw [hl] at hv; simpa using hv.symm
    refine ⟨?_, ?_, ?_⟩
    · rw [hval]; exact div_pos (sum_pos_of hpos hne) hlen
    · by_contra hh
      push Not at hh
      exact hne (hnil.2 hh)
    · rw [hval]; field_simp

/-- Multiplying the image by a positive factor multiplies every value by it. -/
theorem C40_scale (psi : ℕ → ℕ → ℕ → ℕ → ℝ) (sn : Bool) (an : ℝ) (img : Arr2 (Option ℝ)) (c : ℝ) (hc : 0 < c) :
    waveletValue psi sn an (img.map (Option.map (c * ·))) =
      (waveletValue psi sn an img).map (c * ·) := by
  have hm : waveletMap psi sn an (img.map (Option.map (c * ·))) = (waveletMap psi sn an img).map (c * ·) := by
    unfold waveletMap waveletData applyK Arr2.map
    simp only [Arr2.mk.injEq, true_and]
    funext i j
    rw [← mul_assoc, mul_sum]
    congr 1
    apply sum_congr rfl; intro u _
    rw [mul_sum]
    apply sum_congr rfl; intro v _
    cases img.get u v <;> simp; ring
  unfold waveletValue
  rw [hm]
  have hr : ((waveletMap psi sn an img).map (c * ·)).ravel = (waveletMap psi sn an img).ravel.map (c * ·) := by
    unfold Arr2.ravel Arr2.map
    simp [List.flatMap_def, List.map_flatten, Function.comp_def]
  rw [hr]
  set l := (waveletMap psi sn an img).ravel
  have hfil : (l.map (c * ·)).filter (fun v => decide (0 < v)) =
      (l.filter (fun v => decide (0 < v))).map (c * ·) := by
    rw [List.filter_map]
    congr 1
    apply List.filter_congr
    intro x _
    simp [hc]
  rw [hfil]
  unfold meanO
  cases l.filter (fun v => decide (0 < v)) with
  | nil => rfl
  | cons x xs =>
    rw [if_neg (by simp), if_neg (by simp)]
    simp only [List.map_cons, List.sum_cons, List.length_cons, List.length_map, Option.map]
    congr 1
    rw [show (xs.map (c * ·)).sum = c * xs.sum by simpa using List.sum_map_mul_left xs id c]
    ring

/-- A negative factor does not: it selects the other pixels. -/
theorem C40_sign : ∃ (psi : ℕ → ℕ → ℕ → ℕ → ℝ) (img : Arr2 (Option ℝ)),
    waveletValue psi true 1 img = some 3 ∧
    waveletValue psi true 1 (img.map (Option.map ((-1) * ·))) = some 1 := by
  refine ⟨fun i j u v => if u = i ∧ v = j then 1 else 0, ⟨1, 2, fun _ j => if j = 0 then some 3 else some (-1)⟩,
    ?_, ?_⟩
  all_goals
    simp [waveletValue, waveletMap, waveletData, applyK, Arr2.map, Arr2.ravel, meanO, sum_range_succ,
      List.range_succ]

/-- The transform at a scale: the image against the Mexican hat stretched to that scale and divided by its
area (`scale_normalization=True`), so that the total weight of the wavelet is the same at every scale; or
only stretched (`scale_normalization=False`). -/
theorem C40_transform (an : ℝ) (han : 0 < an) (img : Arr2 (Option ℝ)) (i j : ℕ) :
    (waveletMap (fun i j u v => rickerKernel an ((i : ℝ) - u) ((j : ℝ) - v)) true an img).get i j =
      Spec.transformAt (fun x y => Spec.mexicanHat (x / an) (y / an) / an ^ 2) img i j ∧
    (waveletMap (fun i j u v => rickerKernel an ((i : ℝ) - u) ((j : ℝ) - v)) false an img).get i j =
      Spec.transformAt (fun x y => Spec.mexicanHat (x / an) (y / an)) img i j := by
  have hpi := Real.pi_pos.ne'
  have hk : ∀ x y, rickerKernel an x y = Spec.mexicanHat (x / an) (y / an) / an ^ 4 := by
    intro x y
    unfold rickerKernel Spec.mexicanHat
    rw [show (x / an) ^ 2 + (y / an) ^ 2 = (x ^ 2 + y ^ 2) / an ^ 2 by ring,
      show -((x ^ 2 + y ^ 2) / an ^ 2) / 2 = -(x ^ 2 + y ^ 2) / (2 * an ^ 2) by ring,
      show (x ^ 2 + y ^ 2) / an ^ 2 / 2 = (x ^ 2 + y ^ 2) / (2 * an ^ 2) by ring]
    field_simp
  have hg : ∀ k : ℕ, ((∑ u ∈ range img.n, ∑ v ∈ range img.m,
      rickerKernel an ((i : ℝ) - u) ((j : ℝ) - v) * (img.get u v).getD 0) * an ^ k) =
      ∑ u ∈ range img.n, ∑ v ∈ range img.m, Spec.mexicanHat (((i : ℝ) - u) / an) (((j : ℝ) - v) / an) / an ^ 4 * an ^ k *
        (img.get u v).getD 0 := by
    intro k
    rw [sum_mul]
    apply sum_congr rfl; intro u _
    rw [sum_mul]
    apply sum_congr rfl; intro v _
    rw [hk]; ring
  constructor
  · refine (hg 2).trans ?_
    unfold Spec.transformAt
    apply sum_congr rfl; intro u _
    apply sum_congr rfl; intro v _
    congr 1
    field_simp
  · refine (hg 4).trans ?_
    unfold Spec.transformAt
    apply sum_congr rfl; intro u _
    apply sum_congr rfl; intro v _
    congr 1
    field_simp

/-- The uncertainty at a scale: the standard deviation of the positive pixels about the value, divided by
the square root of the number of independent patches, each of twice the area `π ln2 an²/4`; undefined when
there is less than one patch. -/
theorem C40_error (psi : ℕ → ℕ → ℕ → ℕ → ℝ) (sn : Bool) (an : ℝ) (img : Arr2 (Option ℝ)) (m : ℝ)
    (h : waveletValue psi sn an img = some m) :
    let pos := (waveletMap psi sn an img).ravel.filter (fun x => decide (0 < x))
    let patches := img.n * img.m / ⌈2 * (Real.pi * Real.log 2 * an ^ 2 / 4)⌉₊
    (1 ≤ patches → waveletStd psi sn an img =
      some (Real.sqrt ((pos.map (fun x => (x - m) ^ 2)).sum / (pos.length : ℝ)) / Real.sqrt (patches : ℝ))) ∧
    (patches = 0 → waveletStd psi sn an img = none) := by
  intro pos patches
  have hA : kernArea an = ⌈2 * (Real.pi * Real.log 2 * an ^ 2 / 4)⌉₊ := by
    unfold kernArea; congr 1; ring
  have hm : meanO pos = some m := h
  have hne : pos ≠ [] := by
    intro h0; rw [h0] at hm; simp [meanO] at hm
  have hv : varO pos = some ((pos.map (fun x => (x - m) ^ 2)).sum / (pos.length : ℝ)) := by
    unfold varO
    rw [hm]
    show meanO (pos.map (fun t => (t - m) ^ 2)) = _
    unfold meanO
    rw [if_neg (by simpa using hne), List.length_map]
  have hstd : waveletStd psi sn an img = divO (some (Real.sqrt ((pos.map (fun x => (x - m) ^ 2)).sum / (pos.length : ℝ))))
      (some (Real.sqrt (patches : ℝ))) := by
    show divO ((varO pos).map Real.sqrt) (some (Real.sqrt ((img.n * img.m / kernArea an : ℕ) : ℝ))) = _
    rw [hv, hA]; rfl
  rw [hstd]
  constructor
  · intro h1
    have : Real.sqrt (patches : ℝ) ≠ 0 := by
      have : (0 : ℝ) < patches := by exact_mod_cast h1
      exact (Real.sqrt_pos.2 this).ne'
    simp [divO, this]
  · intro h0
    rw [h0]; simp [divO]

/-- Non-vacuity: two positive pixels of four, one patch. -/
example : waveletValue (fun i j u v => if u = i ∧ v = j then 1 else 0) true 1
    ⟨1, 4, fun _ j => if j = 0 then some 3 else if j = 1 then some 1 else some (-1)⟩ = some 2 ∧
    1 ≤ 1 * 4 / ⌈2 * (Real.pi * Real.log 2 * (1 : ℝ) ^ 2 / 4)⌉₊ := by
  constructor
  · norm_num [waveletValue, waveletMap, waveletData, applyK, Arr2.map, Arr2.ravel, meanO, sum_range_succ,
      List.range_succ]
    intro hh; cases hh
  · have h1 : Real.log 2 < 1 := by
      have := Real.log_lt_sub_one_of_pos (by norm_num : (0 : ℝ) < 2) (by norm_num)
      linarith
    have h2 := Real.pi_lt_four
    have h3 : 0 < Real.log 2 := Real.log_pos (by norm_num)
    have h4 : ⌈2 * (Real.pi * Real.log 2 * (1 : ℝ) ^ 2 / 4)⌉₊ ≤ 2 := by
      rw [Nat.ceil_le]; push_cast; nlinarith [Real.pi_pos]
    have h5 : 0 < ⌈2 * (Real.pi * Real.log 2 * (1 : ℝ) ^ 2 / 4)⌉₊ := by
      rw [Nat.ceil_pos]; have := Real.pi_pos; positivity
    rw [Nat.le_div_iff_mul_le h5]; omega

end TS
