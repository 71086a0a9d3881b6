import Verif.Props.C122Cube
import Verif.Props.C86
import Verif.Lemmas.DvInterp

/-! C122: rows and columns of missing pixels around a map. Delta-variance and wavelets. -/

namespace TS
open Finset

namespace Spec

/-- The weights of a map within a frame: none is given to the missing pixels (delta_variance.py:65-67, the default weights). -/
noncomputable def framedWeights (t b l r : ℕ) (w : Arr2 ℝ) : Arr2 ℝ :=
  ⟨t + w.n + b, l + w.m + r, fun i j => if t ≤ i ∧ i < t + w.n ∧ l ≤ j ∧ j < l + w.m then w.get (i - t) (j - l) else 0⟩

end Spec

/-! ### A convolution of a map continued by zeros -/

/-- The convolution at an offset from the corner of the map. -/
private noncomputable def around (k : Kern) (a : Arr2 ℝ) (x y : ℤ) : ℝ :=
  ∑ u ∈ range a.n, ∑ v ∈ range a.m, (if |x - u| ≤ k.r ∧ |y - v| ≤ k.r then k.val (x - u) (y - v) else 0) * a.get u v

/-- The map `A` is the map `a`, with zeros around it. -/
private structure Zeros (T B L R : ℕ) (a A : Arr2 ℝ) : Prop where
  n : A.n = T + a.n + B
  m : A.m = L + a.m + R
  inn : ∀ u < a.n, ∀ v < a.m, A.get (T + u) (L + v) = a.get u v
  out : ∀ i < A.n, ∀ j < A.m, ¬(T ≤ i ∧ i < T + a.n ∧ L ≤ j ∧ j < L + a.m) → A.get i j = 0

private theorem pick (k : Kern) (x y : ℤ) :
    (∑ a ∈ Icc (-(k.r : ℤ)) k.r, ∑ b ∈ Icc (-(k.r : ℤ)) k.r, if x = a ∧ y = b then k.val a b else 0) =
      if |x| ≤ k.r ∧ |y| ≤ k.r then k.val x y else 0 := by
  have h1 : ∀ a b : ℤ, (if x = a ∧ y = b then k.val a b else 0) = if x = a then (if y = b then k.val a b else 0) else 0 := by
    intro a b
    by_cases hx : x = a <;> simp [hx]
  simp only [h1]
  have h2 : ∀ a : ℤ, (∑ b ∈ Icc (-(k.r : ℤ)) k.r, if x = a then (if y = b then k.val a b else 0) else 0) =
      if x = a then (∑ b ∈ Icc (-(k.r : ℤ)) k.r, if y = b then k.val a b else 0) else 0 := by
    intro a
    by_cases hx : x = a <;> simp [hx]
  simp only [h2, sum_ite_eq, mem_Icc, abs_le]
  by_cases hx : -(k.r : ℤ) ≤ x ∧ x ≤ k.r <;> by_cases hy : -(k.r : ℤ) ≤ y ∧ y ≤ k.r <;> simp [hx, hy]

private theorem dvd_small {N x : ℤ} (h1 : -N < x) (h2 : x < N) : N ∣ x ↔ x = 0 := by
  constructor
  · intro h
    exact Int.eq_zero_of_abs_lt_dvd h (abs_lt.2 ⟨h1, h2⟩)
  · rintro rfl
    exact dvd_zero _

/-- Far enough from the border both boundary rules are the plain sum. -/
private theorem coef_eq (k : Kern) (bd : DvBoundary) {n m N M T B L R : ℕ} (hn : N = T + n + B) (hm : M = L + m + R) (hT : k.r ≤ T) (hB : k.r ≤ B)
    (hL : k.r ≤ L) (hR : k.r ≤ R) {i j u v : ℕ} (hi : i < N) (hj : j < M) (hu : u < n) (hv : v < m) :
    k.coef bd N M i j (T + u) (L + v) =
      if |(i : ℤ) - T - u| ≤ k.r ∧ |(j : ℤ) - L - v| ≤ k.r then k.val ((i : ℤ) - T - u) ((j : ℤ) - L - v) else 0 := by
  have hfill : k.fillCoef i j (T + u) (L + v) =
      if |(i : ℤ) - T - u| ≤ k.r ∧ |(j : ℤ) - L - v| ≤ k.r then k.val ((i : ℤ) - T - u) ((j : ℤ) - L - v) else 0 := by
    rw [← pick]
    unfold Kern.fillCoef
    push_cast
    simp only [sub_sub]
  cases bd with
  | fill => exact hfill
  | other => exact hfill
  | wrap =>
    rw [← hfill]
    show k.wrapCoef N M i j (T + u) (L + v) = _
    unfold Kern.wrapCoef Kern.fillCoef
    rw [max_eq_left (show 2 * k.r + 1 ≤ N by omega), max_eq_left (show 2 * k.r + 1 ≤ M by omega)]
    refine sum_congr rfl fun a ha => sum_congr rfl fun b hb => ?_
    have ha := mem_Icc.1 ha
    have hb := mem_Icc.1 hb
    refine if_congr (and_congr ?_ ?_) rfl rfl
    · rw [dvd_small (by push_cast; omega) (by push_cast; omega), sub_eq_zero]
    · rw [dvd_small (by push_cast; omega) (by push_cast; omega), sub_eq_zero]

private theorem apply_zeros (k : Kern) (bd : DvBoundary) {T B L R N M : ℕ} {a A : Arr2 ℝ} (z : Zeros T B L R a A)
    (hN : bd = .wrap → N = A.n ∧ M = A.m) (hT : k.r ≤ T) (hB : k.r ≤ B)
    (hL : k.r ≤ L) (hR : k.r ≤ R) {i j : ℕ} (hi : i < A.n) (hj : j < A.m) :
    (applyK (k.coef bd N M) A).get i j = around k a ((i : ℤ) - T) ((j : ℤ) - L) := by
  have hc : k.coef bd N M = k.coef bd A.n A.m := by
    cases bd with
    | wrap =>
      obtain ⟨h1, h2⟩ := hN rfl
      rw [h1, h2]
    | fill => rfl
    | other => rfl
  rw [hc]
  show ∑ u ∈ range A.n, ∑ v ∈ range A.m, k.coef bd A.n A.m i j u v * A.get u v = _
  have e : ∑ u ∈ range A.n, ∑ v ∈ range A.m, k.coef bd A.n A.m i j u v * A.get u v =
      ∑ u ∈ range (T + a.n + B), ∑ v ∈ range (L + a.m + R), k.coef bd A.n A.m i j u v * A.get u v := by
    rw [z.n, z.m]
  rw [e, sum_frame2 T a.n B L a.m R]
  · unfold around
    refine sum_congr rfl fun u hu => sum_congr rfl fun v hv => ?_
    rw [coef_eq k bd z.n z.m hT hB hL hR hi hj (mem_range.1 hu) (mem_range.1 hv), z.inn u (mem_range.1 hu) v (mem_range.1 hv)]
  · intro u hu v hv ho
    rw [z.out u (by rw [z.n]; exact hu) v (by rw [z.m]; exact hv) ho, mul_zero]

/-- Nothing is left beyond the reach of the kernel. -/
private theorem around_far (k : Kern) (a : Arr2 ℝ) {x y : ℤ} (h : ¬(-(k.r : ℤ) ≤ x ∧ x < a.n + k.r ∧ -(k.r : ℤ) ≤ y ∧ y < a.m + k.r)) :
    around k a x y = 0 := by
  unfold around
  refine sum_eq_zero fun u hu => sum_eq_zero fun v hv => ?_
  have hu := mem_range.1 hu
  have hv := mem_range.1 hv
  rw [if_neg, zero_mul]
  rw [abs_le, abs_le]
  omega

/-- A sum over the pixels of a map, of something that is nothing beyond a margin of `ρ` pixels. -/
private theorem sum_box {M : Type} [AddCommMonoid M] {T n B L m R ρ : ℕ} (hT : ρ ≤ T) (hB : ρ ≤ B) (hL : ρ ≤ L) (hR : ρ ≤ R) (g : ℤ → ℤ → M)
    (hg : ∀ x y : ℤ, ¬(-(ρ : ℤ) ≤ x ∧ x < n + ρ ∧ -(ρ : ℤ) ≤ y ∧ y < m + ρ) → g x y = 0) :
    ∑ i ∈ range (T + n + B), ∑ j ∈ range (L + m + R), g ((i : ℤ) - T) ((j : ℤ) - L) =
      ∑ i ∈ range (n + 2 * ρ), ∑ j ∈ range (m + 2 * ρ), g ((i : ℤ) - ρ) ((j : ℤ) - ρ) := by
  rw [show T + n + B = (T - ρ) + (n + 2 * ρ) + (B - ρ) by omega, show L + m + R = (L - ρ) + (m + 2 * ρ) + (R - ρ) by omega,
    sum_frame2 (T - ρ) (n + 2 * ρ) (B - ρ) (L - ρ) (m + 2 * ρ) (R - ρ)]
  · refine sum_congr rfl fun i _ => sum_congr rfl fun j _ => ?_
    congr 1 <;> push_cast [Nat.cast_sub hT, Nat.cast_sub hL] <;> ring
  · intro i _ j _ ho
    exact hg _ _ (by omega)

/-! ### Wavelets -/

private theorem zeros_wavelet (t b l r : ℕ) (a : Arr2 (Option ℝ)) : Zeros t b l r (waveletData a) (waveletData (Spec.framed t b l r a)) where
  n := rfl
  m := rfl
  inn := fun u hu v hv => by
    show ((Spec.framed t b l r a).get (t + u) (l + v)).getD 0 = (a.get u v).getD 0
    rw [framed_in t b l r a hu hv]
  out := fun i _ j _ h => by
    show ((Spec.framed t b l r a).get i j).getD 0 = 0
    rw [framed_out t b l r a h]
    rfl

/-- The positive pixels, in their order. -/
private theorem filter_pos (x : List ℝ) : x.filter (fun v => decide (0 < v)) = x.filterMap fun v => if 0 < v then some v else none := by
  induction x with
  | nil => rfl
  | cons v x ih =>
    by_cases h : 0 < v
    · rw [List.filter_cons_of_pos (by simpa using h), List.filterMap_cons_some (by rw [if_pos h]), ih]
    · rw [List.filter_cons_of_neg (by simpa using h), List.filterMap_cons_none (by rw [if_neg h]), ih]

private theorem wavelet_wide (bd : DvBoundary) (scaleNorm : Bool) (an : ℝ) (a : Arr2 (Option ℝ)) {t b l r : ℕ} (ht : kernRadius an ≤ t)
    (hb : kernRadius an ≤ b) (hl : kernRadius an ≤ l) (hr : kernRadius an ≤ r) :
    (waveletMap ((rickerKern an).coef bd (t + a.n + b) (l + a.m + r)) scaleNorm an (Spec.framed t b l r a)).ravel.filter (fun v => decide (0 < v)) =
      ((⟨a.n + 2 * kernRadius an, a.m + 2 * kernRadius an, fun i j => around (rickerKern an) (waveletData a) ((i : ℤ) - kernRadius an)
        ((j : ℤ) - kernRadius an) * an ^ (if scaleNorm then 2 else 4)⟩ : Arr2 ℝ).ravel).filter (fun v => decide (0 < v)) := by
  rw [filter_pos, filter_pos]
  have hval : ∀ i < t + a.n + b, ∀ j < l + a.m + r,
      (waveletMap ((rickerKern an).coef bd (t + a.n + b) (l + a.m + r)) scaleNorm an (Spec.framed t b l r a)).get i j =
      around (rickerKern an) (waveletData a) ((i : ℤ) - t) ((j : ℤ) - l) * an ^ (if scaleNorm then 2 else 4) := by
    intro i hi j hj
    show (applyK _ (waveletData (Spec.framed t b l r a))).get i j * _ = _
    rw [apply_zeros (rickerKern an) bd (N := t + a.n + b) (M := l + a.m + r) (zeros_wavelet t b l r a) (fun _ => ⟨rfl, rfl⟩) ht hb hl hr hi hj]
  refine framed_ravel (t := t - kernRadius an) (b := b - kernRadius an) (l := l - kernRadius an) (r := r - kernRadius an) ?_ ?_ _ ?_ ?_
  · show t + a.n + b = t - kernRadius an + (a.n + 2 * kernRadius an) + (b - kernRadius an)
    omega
  · show l + a.m + r = l - kernRadius an + (a.m + 2 * kernRadius an) + (r - kernRadius an)
    omega
  · intro i hi j hj
    have hi' : i < a.n + 2 * kernRadius an := hi
    have hj' : j < a.m + 2 * kernRadius an := hj
    rw [hval _ (by omega) _ (by omega)]
    beta_reduce
    rw [show ((t - kernRadius an + i : ℕ) : ℤ) - t = (i : ℤ) - kernRadius an by omega,
      show ((l - kernRadius an + j : ℕ) : ℤ) - l = (j : ℤ) - kernRadius an by omega]
  · intro i hi j hj ho
    have hi' : i < t + a.n + b := hi
    have hj' : j < l + a.m + r := hj
    have ho' : ¬(t - kernRadius an ≤ i ∧ i < t - kernRadius an + (a.n + 2 * kernRadius an) ∧ l - kernRadius an ≤ j ∧
      j < l - kernRadius an + (a.m + 2 * kernRadius an)) := ho
    rw [hval _ hi' _ hj', around_far, zero_mul, if_neg (lt_irrefl _)]
    show ¬(-(kernRadius an : ℤ) ≤ _ ∧ _ < (a.n : ℤ) + kernRadius an ∧ -(kernRadius an : ℤ) ≤ _ ∧ _ < (a.m : ℤ) + kernRadius an)
    omega

/-- **Wavelets.** All frames at least as wide as the kernel's half-size give the same value at a scale, for every boundary rule. -/
theorem C122_wavelet (bd : DvBoundary) (scaleNorm : Bool) (an : ℝ) (a : Arr2 (Option ℝ)) {t b l r t' b' l' r' : ℕ} (ht : kernRadius an ≤ t)
    (hb : kernRadius an ≤ b) (hl : kernRadius an ≤ l) (hr : kernRadius an ≤ r) (ht' : kernRadius an ≤ t') (hb' : kernRadius an ≤ b')
    (hl' : kernRadius an ≤ l') (hr' : kernRadius an ≤ r') :
    ((computeTransform bd scaleNorm [an] (Spec.framed t b l r a)).map Prod.fst) =
      (computeTransform bd scaleNorm [an] (Spec.framed t' b' l' r' a)).map Prod.fst := by
  show [meanO _] = [meanO _]
  congr 2
  exact (wavelet_wide bd scaleNorm an a ht hb hl hr).trans (wavelet_wide bd scaleNorm an a ht' hb' hl' hr').symm

/-- **Wavelets.** With the default boundary rule the map of coefficients keeps its values at the pixels of the map, in any frame. -/
theorem C122_wavelet_map (scaleNorm : Bool) (an : ℝ) (a : Arr2 (Option ℝ)) (t b l r : ℕ) {i j : ℕ} (hi : i < a.n) (hj : j < a.m) :
    (waveletMap ((rickerKern an).coef .fill (t + a.n + b) (l + a.m + r)) scaleNorm an (Spec.framed t b l r a)).get (t + i) (l + j) =
      (waveletMap ((rickerKern an).coef .fill a.n a.m) scaleNorm an a).get i j := by
  have z := zeros_wavelet t b l r a
  show (∑ u ∈ range (t + a.n + b), ∑ v ∈ range (l + a.m + r), (rickerKern an).fillCoef (t + i) (l + j) u v *
      (waveletData (Spec.framed t b l r a)).get u v) * _ =
    (∑ u ∈ range a.n, ∑ v ∈ range a.m, (rickerKern an).fillCoef i j u v * (waveletData a).get u v) * _
  congr 1
  rw [sum_frame2 t a.n b l a.m r]
  · refine sum_congr rfl fun u hu => sum_congr rfl fun v hv => ?_
    rw [z.inn u (mem_range.1 hu) v (mem_range.1 hv)]
    congr 1
    unfold Kern.fillCoef
    push_cast
    simp only [add_sub_add_left_eq_sub]
  · intro u hu v hv ho
    rw [z.out u hu v hv ho, mul_zero]

theorem kernRadius_one : kernRadius 1 = 4 := by
  have h : ⌈(8 : ℝ) * 1⌉₊ = 8 := by norm_num
  unfold kernRadius roundUpOdd
  rw [h]
  rfl

/-- **Not so for narrower frames.** One row of missing pixels above a map of a single pixel changes its wavelet value: the pixels of the frame
that the kernel reaches count among the positive ones. -/
theorem C122_wavelet_violated : ∃ (a : Arr2 (Option ℝ)) (t b l r : ℕ),
    (computeTransform .fill true [1] (Spec.framed t b l r a)).map Prod.fst ≠ (computeTransform .fill true [1] a).map Prod.fst := by
  refine ⟨⟨1, 1, fun _ _ => some 1⟩, 1, 0, 0, 0, ?_⟩
  have hk : ∀ x : ℤ, |x| ≤ 1 → ∀ i u : ℕ, (i : ℤ) - u = x → (rickerKern 1).fillCoef i 0 u 0 = rickerKernel 1 x 0 := by
    intro x hx i u h
    have e := pick (rickerKern 1) x 0
    unfold Kern.fillCoef
    rw [h]
    push_cast
    rw [e, if_pos]
    · show rickerKernel 1 _ _ = _
      norm_num
    · show |x| ≤ ((kernRadius 1 : ℕ) : ℤ) ∧ |(0 : ℤ)| ≤ ((kernRadius 1 : ℕ) : ℤ)
      rw [kernRadius_one]
      push_cast
      rw [abs_zero]
      omega
  have k0 : rickerKernel 1 (0 : ℤ) 0 = 1 / Real.pi := by
    unfold rickerKernel
    norm_num
  have k1 : rickerKernel 1 (-1 : ℤ) 0 = 1 / Real.pi * (1 / 2 * Real.exp (-1 / 2)) := by
    unfold rickerKernel
    norm_num
    ring
  have hpi : 0 < 1 / Real.pi := one_div_pos.2 Real.pi_pos
  have hexp : Real.exp (-1 / 2) < 1 := by
    rw [← Real.exp_zero]
    exact Real.exp_lt_exp.2 (by norm_num)
  have hexp0 : 0 < Real.exp (-1 / 2) := Real.exp_pos _
  have m1 : (waveletMap ((rickerKern 1).coef .fill 1 1) true 1 ⟨1, 1, fun _ _ => some 1⟩).ravel = [1 / Real.pi] := by
    show [_] = [_]
    congr 1
    show (∑ u ∈ range 1, ∑ v ∈ range 1, (rickerKern 1).fillCoef 0 0 u v * 1) * _ = _
    rw [sum_range_one, sum_range_one, hk 0 (by simp) 0 0 (by simp), k0]
    norm_num
  have m2 : (waveletMap ((rickerKern 1).coef .fill 2 1) true 1 (Spec.framed 1 0 0 0 ⟨1, 1, fun _ _ => some 1⟩)).ravel =
      [1 / Real.pi * (1 / 2 * Real.exp (-1 / 2)), 1 / Real.pi] := by
    have hrow : ∀ i : ℕ, (waveletMap ((rickerKern 1).coef .fill 2 1) true 1 (Spec.framed 1 0 0 0 ⟨1, 1, fun _ _ => some 1⟩)).get i 0 =
        (rickerKern 1).fillCoef i 0 1 0 := by
      intro i
      show (∑ u ∈ range 2, ∑ v ∈ range 1, (rickerKern 1).fillCoef i 0 u v *
        (waveletData (Spec.framed 1 0 0 0 ⟨1, 1, fun _ _ => some 1⟩)).get u v) * 1 ^ (if true then 2 else 4) = _
      rw [sum_range_succ, sum_range_one, sum_range_one, sum_range_one]
      have z0 : (waveletData (Spec.framed 1 0 0 0 ⟨1, 1, fun _ _ => some 1⟩)).get 0 0 = 0 := by
        simp [waveletData, Spec.framed, Arr2.map]
      have z1 : (waveletData (Spec.framed 1 0 0 0 ⟨1, 1, fun _ _ => some 1⟩)).get 1 0 = 1 := by
        simp [waveletData, Spec.framed, Arr2.map]
      rw [z0, z1]
      norm_num
    show [_, _] = [_, _]
    beta_reduce
    rw [hrow 0, hrow 1, hk (-1) (by simp) 0 1 (by simp), hk 0 (by simp) 1 1 (by simp), k0, k1]
  have v1 : waveletValue ((rickerKern 1).coef .fill 1 1) true 1 ⟨1, 1, fun _ _ => some 1⟩ = some (1 / Real.pi) := by
    unfold waveletValue
    rw [m1, List.filter_cons_of_pos (by simpa using Real.pi_pos)]
    simp [meanO]
  have v2 : waveletValue ((rickerKern 1).coef .fill 2 1) true 1 (Spec.framed 1 0 0 0 ⟨1, 1, fun _ _ => some 1⟩) =
      some ((1 / Real.pi * (1 / 2 * Real.exp (-1 / 2)) + 1 / Real.pi) / 2) := by
    unfold waveletValue
    rw [m2, List.filter_cons_of_pos (by simp only [decide_eq_true_eq]; positivity), List.filter_cons_of_pos (by simp only [decide_eq_true_eq]; positivity)]
    simp [meanO]
  intro h
  have h' : waveletValue ((rickerKern 1).coef .fill 2 1) true 1 (Spec.framed 1 0 0 0 ⟨1, 1, fun _ _ => some 1⟩) =
      waveletValue ((rickerKern 1).coef .fill 1 1) true 1 ⟨1, 1, fun _ _ => some 1⟩ := (List.cons.inj h).1
  rw [v1, v2] at h'
  have h'' := Option.some.inj h'
  nlinarith [mul_pos hpi hexp0, mul_lt_mul_of_pos_left hexp hpi]

/-! ### Delta-variance -/

private theorem delvar_eq {arr wt arr' wt' : Arr2 (Option ℝ)} (lag : ℝ) (hn : wt.n = arr.n) (hm : wt.m = arr.m) (hn' : wt'.n = arr'.n)
    (hm' : wt'.m = arr'.m)
    (h : ∀ (M : Type) [AddCommMonoid M] (g : Option ℝ → Option ℝ → M), g none none = 0 →
      ∑ i ∈ range arr.n, ∑ j ∈ range arr.m, g (arr.get i j) (wt.get i j) = ∑ i ∈ range arr'.n, ∑ j ∈ range arr'.m, g (arr'.get i j) (wt'.get i j)) :
    delvar arr wt lag = delvar arr' wt' lag := by
  have s1 : arr.nansum = arr'.nansum := h ℝ (fun x _ => x.getD 0) rfl
  have s2 : arr.nFinite = arr'.nFinite := h ℕ (fun x _ => if x.isSome then 1 else 0) rfl
  have s3 : wt.nansum = wt'.nansum := by
    unfold Arr2.nansum
    rw [hn, hm, hn', hm']
    exact h ℝ (fun _ y => y.getD 0) rfl
  have s4 : ∀ (μ : Option ℝ) (p : ℕ), (⟨arr.n, arr.m, fun i j => mulO ((subO (arr.get i j) μ).map (· ^ p)) (wt.get i j)⟩ : Arr2 (Option ℝ)).nansum =
      (⟨arr'.n, arr'.m, fun i j => mulO ((subO (arr'.get i j) μ).map (· ^ p)) (wt'.get i j)⟩ : Arr2 (Option ℝ)).nansum := fun μ p =>
    h ℝ (fun x y => (mulO ((subO x μ).map (· ^ p)) y).getD 0) rfl
  have s5 : ∀ μ : Option ℝ, (⟨arr.n, arr.m, fun i j => subO (arr.get i j) μ⟩ : Arr2 (Option ℝ)).nFinite =
      (⟨arr'.n, arr'.m, fun i j => subO (arr'.get i j) μ⟩ : Arr2 (Option ℝ)).nFinite := fun μ =>
    h ℕ (fun x _ => if (subO x μ).isSome then 1 else 0) rfl
  unfold delvar
  simp only [s1, s2, s3, s4, s5]

/-- The filtered map at an offset from the corner of the map; `gone` are the missing pixels. -/
private noncomputable def filtered (core ann : Kern) (c : ℝ) (preserve : Bool) (d w : Arr2 ℝ) (gone : ℤ → ℤ → Bool) (x y : ℤ) : Option ℝ :=
  if preserve ∧ gone x y then none
  else subO (divO (some (around core d x y)) (dvMask c (around core w x y))) (divO (some (around ann d x y)) (dvMask c (around ann w x y)))

private noncomputable def filteredW (core ann : Kern) (c : ℝ) (w : Arr2 ℝ) (x y : ℤ) : Option ℝ :=
  mulO (dvMask c (around core w x y)) (dvMask c (around ann w x y))

private theorem mask_zero {c : ℝ} (hc : 0 ≤ c) : dvMask c 0 = none := if_pos hc

private theorem divO_none (x : Option ℝ) : divO x none = none := by
  cases x <;> rfl

private theorem filter_sums {core ann : Kern} (hr : ann.r = core.r) (bd : DvBoundary) {c : ℝ} (hc : 0 ≤ c) (preserve : Bool) {d w : Arr2 ℝ}
    (hdn : d.n = w.n) (hdm : d.m = w.m) (gone : ℤ → ℤ → Bool) {T B L R N M : ℕ} {pi : Arr2 (Option ℝ)} {pw : Arr2 ℝ}
    (zd : Zeros T B L R d (pi.map (fun v => v.getD 0))) (zw : Zeros T B L R w pw) (hN : bd = .wrap → N = pi.n ∧ M = pi.m)
    (hT : core.r ≤ T) (hB : core.r ≤ B) (hL : core.r ≤ L) (hR : core.r ≤ R)
    (hgone : ∀ i < pi.n, ∀ j < pi.m, T ≤ i + core.r → i < T + w.n + core.r → L ≤ j + core.r → j < L + w.m + core.r →
      (pi.get i j).isNone = gone ((i : ℤ) - T) ((j : ℤ) - L)) (K : Type) [AddCommMonoid K] (g : Option ℝ → Option ℝ → K) (hg : g none none = 0) :
    ∑ i ∈ range pi.n, ∑ j ∈ range pi.m, g ((dvFilter (core.coef bd N M) (ann.coef bd N M) c preserve pi pw).1.get i j)
        ((dvFilter (core.coef bd N M) (ann.coef bd N M) c preserve pi pw).2.get i j) =
      ∑ i ∈ range (w.n + 2 * core.r), ∑ j ∈ range (w.m + 2 * core.r),
        g (filtered core ann c preserve d w gone ((i : ℤ) - core.r) ((j : ℤ) - core.r)) (filteredW core ann c w ((i : ℤ) - core.r) ((j : ℤ) - core.r)) := by
  have en : pi.n = T + w.n + B := by rw [← hdn]; exact zd.n
  have em : pi.m = L + w.m + R := by rw [← hdm]; exact zd.m
  have ewn : pw.n = pi.n := by rw [en, zw.n]
  have ewm : pw.m = pi.m := by rw [em, zw.m]
  have far : ∀ x y : ℤ, ¬(-(core.r : ℤ) ≤ x ∧ x < w.n + core.r ∧ -(core.r : ℤ) ≤ y ∧ y < w.m + core.r) →
      filtered core ann c preserve d w gone x y = none ∧ filteredW core ann c w x y = none := by
    intro x y h
    unfold filtered filteredW
    rw [around_far core w h, mask_zero hc, divO_none]
    exact ⟨ite_self _ ▸ rfl, rfl⟩
  rw [← sum_box (T := T) (B := B) (L := L) (R := R) hT hB hL hR (fun x y => g (filtered core ann c preserve d w gone x y) (filteredW core ann c w x y))]
  · rw [en, em]
    refine sum_congr rfl fun i hi => sum_congr rfl fun j hj => ?_
    have hi : i < pi.n := by rw [en]; exact mem_range.1 hi
    have hj : j < pi.m := by rw [em]; exact mem_range.1 hj
    have c1 := apply_zeros core bd (N := N) (M := M) zd hN hT hB hL hR (i := i) (j := j) hi hj
    have c2 := apply_zeros ann bd (N := N) (M := M) zd hN (hr ▸ hT) (hr ▸ hB) (hr ▸ hL) (hr ▸ hR) (i := i) (j := j) hi hj
    have c3 := apply_zeros core bd (N := N) (M := M) zw (fun h => ⟨(hN h).1.trans ewn.symm, (hN h).2.trans ewm.symm⟩) hT hB hL hR (i := i) (j := j)
      (by omega) (by omega)
    have c4 := apply_zeros ann bd (N := N) (M := M) zw (fun h => ⟨(hN h).1.trans ewn.symm, (hN h).2.trans ewm.symm⟩) (hr ▸ hT) (hr ▸ hB) (hr ▸ hL)
      (hr ▸ hR) (i := i) (j := j) (by omega) (by omega)
    have w2 : (dvFilter (core.coef bd N M) (ann.coef bd N M) c preserve pi pw).2.get i j = filteredW core ann c w ((i : ℤ) - T) ((j : ℤ) - L) := by
      show mulO (dvMask c _) (dvMask c _) = _
      rw [c3, c4]
      rfl
    have w1 : (dvFilter (core.coef bd N M) (ann.coef bd N M) c preserve pi pw).1.get i j =
        filtered core ann c preserve d w gone ((i : ℤ) - T) ((j : ℤ) - L) := by
      have e : (dvFilter (core.coef bd N M) (ann.coef bd N M) c preserve pi pw).1.get i j = if preserve ∧ (pi.get i j).isNone then none
          else subO (divO (some (around core d ((i : ℤ) - T) ((j : ℤ) - L))) (dvMask c (around core w ((i : ℤ) - T) ((j : ℤ) - L))))
            (divO (some (around ann d ((i : ℤ) - T) ((j : ℤ) - L))) (dvMask c (around ann w ((i : ℤ) - T) ((j : ℤ) - L)))) := by
        rw [← c1, ← c2, ← c3, ← c4]
        rfl
      rw [e]
      by_cases hb : T ≤ i + core.r ∧ i < T + w.n + core.r ∧ L ≤ j + core.r ∧ j < L + w.m + core.r
      · rw [hgone i hi j hj hb.1 hb.2.1 hb.2.2.1 hb.2.2.2]
        rfl
      · rw [(far _ _ (by omega)).1, around_far core w (by omega), mask_zero hc, divO_none]
        exact ite_self _
    rw [w1, w2]
  · intro x y h
    beta_reduce
    rw [(far x y h).1, (far x y h).2, hg]

private theorem max_framed (t b l r : ℕ) {w : Arr2 ℝ} (hw : ∀ i j, 0 ≤ w.get i j) (hn : 0 < w.n) (hm : 0 < w.m) :
    npMax (Spec.framedWeights t b l r w).ravel = npMax w.ravel ∧ ∃ z, npMax w.ravel = .ok z ∧ 0 ≤ z := by
  have ex : ∀ x : List ℝ, x ≠ [] → ∃ z, npMax x = .ok z := by
    intro x hx
    cases x with
    | nil => exact absurd rfl hx
    | cons v x => exact ⟨_, rfl⟩
  have hmem : w.get 0 0 ∈ w.ravel := mem_ravel.2 ⟨0, hn, 0, hm, rfl⟩
  have inn : ∀ i < w.n, ∀ j < w.m, (Spec.framedWeights t b l r w).get (t + i) (l + j) = w.get i j := by
    intro i hi j hj
    show (if _ then _ else _) = _
    rw [if_pos (by omega), Nat.add_sub_cancel_left, Nat.add_sub_cancel_left]
  have hsub : ∀ x ∈ w.ravel, x ∈ (Spec.framedWeights t b l r w).ravel := by
    intro x hx
    obtain ⟨i, hi, j, hj, e⟩ := mem_ravel.1 hx
    exact mem_ravel.2 ⟨t + i, by show t + i < t + w.n + b; omega, l + j, by show l + j < l + w.m + r; omega, (inn i hi j hj).trans e⟩
  obtain ⟨z, hz⟩ := ex _ (List.ne_nil_of_mem hmem)
  obtain ⟨z', hz'⟩ := ex _ (List.ne_nil_of_mem (hsub _ hmem))
  obtain ⟨hz1, hz2⟩ := npMax_spec hz
  obtain ⟨hz1', hz2'⟩ := npMax_spec hz'
  have hz0 : 0 ≤ z := (hw 0 0).trans (hz2 _ hmem)
  refine ⟨?_, z, hz, hz0⟩
  rw [hz, hz']
  congr 1
  refine le_antisymm ?_ (hz2' _ (hsub _ hz1))
  obtain ⟨i, _, j, _, e⟩ := mem_ravel.1 hz1'
  rw [← e]
  show (if _ then _ else _) ≤ z
  split_ifs with h
  · exact hz2 _ (mem_ravel.2 ⟨i - t, by omega, j - l, by omega, rfl⟩)
  · exact hz0

/-- The missing pixels of a map, as seen from its corner: those outside of it too. -/
private def goneAt (a : Arr2 (Option ℝ)) (x y : ℤ) : Bool :=
  if 0 ≤ x ∧ x < a.n ∧ 0 ≤ y ∧ y < a.m then (a.get x.toNat y.toNat).isNone else true

private theorem lag_wide (junkI : ℕ → ℕ → Option ℝ) (junkW : ℕ → ℕ → ℝ) (bd : DvBoundary) {frac : ℝ} (hf : 0 ≤ frac) (preserve : Bool) (ratio : ℝ)
    {lag : ℝ} (hlag : 1 ≤ lag) {a : Arr2 (Option ℝ)} {w : Arr2 ℝ} (hn : w.n = a.n) (hm : w.m = a.m) (hn0 : 0 < a.n) (hm0 : 0 < a.m)
    (hw : ∀ i j, 0 ≤ w.get i j) {t b l r t' b' l' r' : ℕ} (ht : (coreKernel lag).r ≤ t) (hb : (coreKernel lag).r ≤ b) (hl : (coreKernel lag).r ≤ l)
    (hr : (coreKernel lag).r ≤ r) (ht' : (coreKernel lag).r ≤ t') (hb' : (coreKernel lag).r ≤ b') (hl' : (coreKernel lag).r ≤ l')
    (hr' : (coreKernel lag).r ≤ r') :
    deltaVarLag junkI junkW bd frac preserve ratio lag (Spec.framed t b l r a) (Spec.framedWeights t b l r w) =
      deltaVarLag junkI junkW bd frac preserve ratio lag (Spec.framed t' b' l' r' a) (Spec.framedWeights t' b' l' r' w) := by
  set d : Arr2 ℝ := ⟨a.n, a.m, fun i j => (mulO (a.get i j) (some (w.get i j))).getD 0⟩ with hd
  have winn : ∀ t b l r : ℕ, ∀ i < w.n, ∀ j < w.m, (Spec.framedWeights t b l r w).get (t + i) (l + j) = w.get i j := by
    intro t b l r i hi j hj
    show (if _ then _ else _) = _
    rw [if_pos (by omega), Nat.add_sub_cancel_left, Nat.add_sub_cancel_left]
  have wout : ∀ t b l r i j : ℕ, ¬(t ≤ i ∧ i < t + w.n ∧ l ≤ j ∧ j < l + w.m) → (Spec.framedWeights t b l r w).get i j = 0 :=
    fun t b l r i j h => if_neg h
  have hgo : ∀ i < a.n, ∀ j < a.m, (a.get i j).isNone = goneAt a i j := by
    intro i hi j hj
    unfold goneAt
    rw [if_pos (by omega)]
    rfl
  have hgx : ∀ x y : ℤ, ¬(0 ≤ x ∧ x < a.n ∧ 0 ≤ y ∧ y < a.m) → goneAt a x y = true := fun x y h => if_neg h
  have mulnone : ∀ (x : Option ℝ) (y : ℝ), (mulO x (some y)).isNone = x.isNone := by
    intro x y
    cases x <;> rfl
  obtain ⟨-, z, hz, hz0⟩ := max_framed t b l r hw (hn ▸ hn0) (hm ▸ hm0)
  have hc : 0 ≤ frac * z := mul_nonneg hf hz0
  -- every wide frame gives sums over the reach of the kernel
  have key : ∀ t b l r : ℕ, (coreKernel lag).r ≤ t → (coreKernel lag).r ≤ b → (coreKernel lag).r ≤ l → (coreKernel lag).r ≤ r →
      bd = .other ∨ ∃ pi pw, dvPad junkI junkW bd lag (Spec.framed t b l r a) (Spec.framedWeights t b l r w) = .ok (pi, pw) ∧
        ∀ (K : Type) [AddCommMonoid K] (g : Option ℝ → Option ℝ → K), g none none = 0 →
          ∑ i ∈ range pi.n, ∑ j ∈ range pi.m,
            g ((dvFilter ((coreKernel lag).normalised.coef bd (t + a.n + b) (l + a.m + r))
                ((annulusKernel lag ratio).normalised.coef bd (t + a.n + b) (l + a.m + r)) (frac * z) preserve pi pw).1.get i j)
              ((dvFilter ((coreKernel lag).normalised.coef bd (t + a.n + b) (l + a.m + r))
                ((annulusKernel lag ratio).normalised.coef bd (t + a.n + b) (l + a.m + r)) (frac * z) preserve pi pw).2.get i j) =
          ∑ i ∈ range (w.n + 2 * (coreKernel lag).r), ∑ j ∈ range (w.m + 2 * (coreKernel lag).r),
            g (filtered (coreKernel lag).normalised (annulusKernel lag ratio).normalised (frac * z) preserve d w (goneAt a)
                ((i : ℤ) - (coreKernel lag).r) ((j : ℤ) - (coreKernel lag).r))
              (filteredW (coreKernel lag).normalised (annulusKernel lag ratio).normalised (frac * z) w
                ((i : ℤ) - (coreKernel lag).r) ((j : ℤ) - (coreKernel lag).r)) := by
    intro t b l r ht hb hl hr
    cases bd with
    | other => exact Or.inl rfl
    | wrap =>
      refine Or.inr ⟨_, _, rfl, fun K _ g hg => ?_⟩
      refine filter_sums (core := (coreKernel lag).normalised) (ann := (annulusKernel lag ratio).normalised) rfl .wrap hc preserve (d := d) (w := w)
        hn.symm hm.symm (goneAt a) (T := t) (B := b) (L := l) (R := r) ?_ ?_ (fun _ => ⟨rfl, rfl⟩) ht hb hl hr ?_ K g hg
      · refine ⟨rfl, rfl, fun u hu v hv => ?_, fun i _ j _ h => ?_⟩
        · show (mulO ((Spec.framed t b l r a).get (t + u) (l + v)) (some ((Spec.framedWeights t b l r w).get (t + u) (l + v)))).getD 0 = _
          have hu' : u < a.n := hu
          have hv' : v < a.m := hv
          rw [framed_in t b l r a hu' hv', winn t b l r u (by omega) v (by omega)]
        · show (mulO ((Spec.framed t b l r a).get i j) _).getD 0 = 0
          rw [framed_out t b l r a h]
          rfl
      · exact ⟨rfl, rfl, winn t b l r, fun i _ j _ h => wout t b l r i j h⟩
      · intro i hi j hj _ _ _ _
        show (mulO ((Spec.framed t b l r a).get i j) _).isNone = _
        rw [mulnone]
        by_cases h : t ≤ i ∧ i < t + a.n ∧ l ≤ j ∧ j < l + a.m
        · have e := framed_in t b l r a (i := i - t) (j := j - l) (by omega) (by omega)
          rw [show t + (i - t) = i by omega, show l + (j - l) = j by omega] at e
          rw [e, hgo _ (by omega) _ (by omega), Nat.cast_sub h.1, Nat.cast_sub h.2.2.1]
        · rw [framed_out t b l r a h, hgx _ _ (by omega)]
          rfl
    | fill =>
      have hp : 0 < (pyInt lag).toNat := by
        unfold pyInt
        rw [if_pos (by linarith)]
        have : (1 : ℤ) ≤ ⌊lag⌋ := Int.le_floor.2 (by exact_mod_cast hlag)
        omega
      refine Or.inr ⟨_, _, rfl, fun K _ g hg => ?_⟩
      generalize (pyInt lag).toNat = p at hp
      have gi := fun i hi j hj => pad_get junkI (some 0) (Spec.framed t b l r a) p hp i j hi hj
      have gw := fun i hi j hj => pad_get junkW 0 (Spec.framedWeights t b l r w) p hp i j hi hj
      have hin : ∀ u < a.n, ∀ v < a.m, (npPad2 junkI (padWith (some 0)) (Spec.framed t b l r a) p).get (p + t + u) (p + l + v) = a.get u v := by
        intro u hu v hv
        rw [gi _ (by show _ < t + a.n + b + 2 * p; omega) _ (by show _ < l + a.m + r + 2 * p; omega),
          if_pos (by show p ≤ _ ∧ _ < t + a.n + b + p ∧ p ≤ _ ∧ _ < l + a.m + r + p; omega), show p + t + u - p = t + u by omega,
          show p + l + v - p = l + v by omega, framed_in t b l r a hu hv]
      have hwin : ∀ u < w.n, ∀ v < w.m, (npPad2 junkW (padWith 0) (Spec.framedWeights t b l r w) p).get (p + t + u) (p + l + v) = w.get u v := by
        intro u hu v hv
        rw [gw _ (by show _ < t + w.n + b + 2 * p; omega) _ (by show _ < l + w.m + r + 2 * p; omega),
          if_pos (by show p ≤ _ ∧ _ < t + w.n + b + p ∧ p ≤ _ ∧ _ < l + w.m + r + p; omega), show p + t + u - p = t + u by omega,
          show p + l + v - p = l + v by omega, winn t b l r u hu v hv]
      have hwout : ∀ i < t + w.n + b + 2 * p, ∀ j < l + w.m + r + 2 * p, ¬(p + t ≤ i ∧ i < p + t + w.n ∧ p + l ≤ j ∧ j < p + l + w.m) →
          (npPad2 junkW (padWith 0) (Spec.framedWeights t b l r w) p).get i j = 0 := by
        intro i hi j hj h
        rw [gw i hi j hj]
        split_ifs with h'
        · exact wout t b l r _ _ (by omega)
        · rfl
      refine filter_sums (core := (coreKernel lag).normalised) (ann := (annulusKernel lag ratio).normalised) rfl .fill hc preserve (d := d) (w := w)
        hn.symm hm.symm (goneAt a) (T := p + t) (B := b + p) (L := p + l) (R := r + p) ?_ ?_ (fun h => nomatch h)
        (by show (coreKernel lag).r ≤ _; omega) (by show (coreKernel lag).r ≤ _; omega) (by show (coreKernel lag).r ≤ _; omega)
        (by show (coreKernel lag).r ≤ _; omega) ?_ K g hg
      · refine ⟨?_, ?_, fun u hu v hv => ?_, fun i hi j hj h => ?_⟩
        · show t + a.n + b + 2 * p = p + t + a.n + (b + p)
          omega
        · show l + a.m + r + 2 * p = p + l + a.m + (r + p)
          omega
        · have hu' : u < a.n := hu
          have hv' : v < a.m := hv
          show (mulO ((npPad2 junkI (padWith (some 0)) (Spec.framed t b l r a) p).get (p + t + u) (p + l + v))
            (some ((npPad2 junkW (padWith 0) (Spec.framedWeights t b l r w) p).get (p + t + u) (p + l + v)))).getD 0 = _
          rw [hin u hu' v hv', hwin u (by omega) v (by omega)]
        · have hi' : i < t + a.n + b + 2 * p := hi
          have hj' : j < l + a.m + r + 2 * p := hj
          have h' : ¬(p + t ≤ i ∧ i < p + t + a.n ∧ p + l ≤ j ∧ j < p + l + a.m) := h
          show (mulO ((npPad2 junkI (padWith (some 0)) (Spec.framed t b l r a) p).get i j)
            (some ((npPad2 junkW (padWith 0) (Spec.framedWeights t b l r w) p).get i j))).getD 0 = 0
          rw [hwout i (by omega) j (by omega) (by omega)]
          cases (npPad2 junkI (padWith (some 0)) (Spec.framed t b l r a) p).get i j with
          | none => rfl
          | some x => exact mul_zero x
      · refine ⟨?_, ?_, hwin, hwout⟩
        · show t + w.n + b + 2 * p = p + t + w.n + (b + p)
          omega
        · show l + w.m + r + 2 * p = p + l + w.m + (r + p)
          omega
      · intro i hi j hj h1 h2 h3 h4
        have hi' : i < t + a.n + b + 2 * p := hi
        have hj' : j < l + a.m + r + 2 * p := hj
        have h1' : p + t ≤ i + (coreKernel lag).r := h1
        have h2' : i < p + t + w.n + (coreKernel lag).r := h2
        have h3' : p + l ≤ j + (coreKernel lag).r := h3
        have h4' : j < p + l + w.m + (coreKernel lag).r := h4
        show (mulO ((npPad2 junkI (padWith (some 0)) (Spec.framed t b l r a) p).get i j) _).isNone = _
        rw [mulnone]
        by_cases h : p + t ≤ i ∧ i < p + t + a.n ∧ p + l ≤ j ∧ j < p + l + a.m
        · have e := hin (i - (p + t)) (by omega) (j - (p + l)) (by omega)
          rw [show p + t + (i - (p + t)) = i by omega, show p + l + (j - (p + l)) = j by omega] at e
          rw [e, hgo _ (by omega) _ (by omega), Nat.cast_sub h.1, Nat.cast_sub h.2.2.1]
        · rw [gi i hi' j hj', if_pos (by show p ≤ _ ∧ _ < t + a.n + b + p ∧ p ≤ _ ∧ _ < l + a.m + r + p; omega),
            framed_out t b l r a (by omega), hgx _ _ (by omega)]
          rfl
  unfold deltaVarLag deltaVarAt
  rw [(max_framed t b l r hw (hn ▸ hn0) (hm ▸ hm0)).1, (max_framed t' b' l' r' hw (hn ▸ hn0) (hm ▸ hm0)).1, hz]
  obtain h | ⟨pi, pw, e, s⟩ := key t b l r ht hb hl hr
  · subst h
    rfl
  obtain h | ⟨pi', pw', e', s'⟩ := key t' b' l' r' ht' hb' hl' hr'
  · subst h
    rfl
  rw [e, e']
  show Except.ok _ = Except.ok _
  congr 1
  exact delvar_eq lag rfl rfl rfl rfl fun M _ g hg => (s M g hg).trans (s' M g hg).symm

/-- **Delta-variance.** All frames at least as wide as the kernels' half-size give the same values and errors at all lags, for every boundary
rule, weights and ratio, when missing pixels have no weight. -/
theorem C122_delta_variance (junkI : ℕ → ℕ → Option ℝ) (junkW : ℕ → ℕ → ℝ) (bd : DvBoundary) {frac : ℝ} (hf : 0 ≤ frac) (preserve : Bool)
    (ratio : ℝ) {lags : List ℝ} (hlag : ∀ lag ∈ lags, 1 ≤ lag) {a : Arr2 (Option ℝ)} {w : Arr2 ℝ} (hn : w.n = a.n) (hm : w.m = a.m) (hn0 : 0 < a.n)
    (hm0 : 0 < a.m) (hw : ∀ i j, 0 ≤ w.get i j) {ρ : ℕ} (hρ : ∀ lag ∈ lags, kernRadius (lag / (2 * Real.sqrt 2)) ≤ ρ)
    {t b l r t' b' l' r' : ℕ} (ht : ρ ≤ t) (hb : ρ ≤ b) (hl : ρ ≤ l) (hr : ρ ≤ r) (ht' : ρ ≤ t') (hb' : ρ ≤ b') (hl' : ρ ≤ l') (hr' : ρ ≤ r') :
    computeDeltavar junkI junkW bd frac preserve ratio lags (Spec.framed t b l r a) (Spec.framedWeights t b l r w) =
      computeDeltavar junkI junkW bd frac preserve ratio lags (Spec.framed t' b' l' r' a) (Spec.framedWeights t' b' l' r' w) := by
  unfold computeDeltavar
  induction lags with
  | nil => rw [List.mapM_nil, List.mapM_nil]
  | cons lag lags ih =>
    rw [List.mapM_cons, List.mapM_cons, ih (fun x hx => hlag x (List.mem_cons_of_mem _ hx)) fun x hx => hρ x (List.mem_cons_of_mem _ hx)]
    have h : (coreKernel lag).r ≤ ρ := by
      simp only [coreKernel]
      exact hρ lag List.mem_cons_self
    rw [lag_wide junkI junkW bd hf preserve ratio (hlag lag List.mem_cons_self) hn hm hn0 hm0 hw (t := t) (b := b) (l := l) (r := r) (t' := t')
      (b' := b') (l' := l') (r' := r') (h.trans ht) (h.trans hb) (h.trans hl) (h.trans hr) (h.trans ht') (h.trans hb') (h.trans hl') (h.trans hr')]

/-! ### Delta-variance with interpolation -/

/-- The interpolated convolution at an offset from the corner of the map. -/
private noncomputable def aroundI (k : Kern) (d valid : Arr2 ℝ) (x y : ℤ) : Option ℝ :=
  if around k valid x y ≤ 0 then none else some (around k d x y / around k valid x y)

private noncomputable def filteredI (core ann : Kern) (c : ℝ) (preserve : Bool) (d valid w : Arr2 ℝ) (gone : ℤ → ℤ → Bool) (x y : ℤ) : Option ℝ :=
  if preserve ∧ gone x y then none
  else subO (divO (aroundI core d valid x y) (dvMask c (around core w x y))) (divO (aroundI ann d valid x y) (dvMask c (around ann w x y)))

private theorem applyI_image {k : Kern} (hk : k.sum = 1) {T B L R : ℕ} {d valid : Arr2 ℝ} {pi : Arr2 (Option ℝ)} (hdn : 0 < d.n) (hdm : 0 < d.m)
    (zd : Zeros T B L R d (pi.map (fun v => v.getD 0))) (zv : Zeros T B L R valid (pi.map fun v => if v.isSome then 1 else 0))
    (hT : k.r ≤ T) (hB : k.r ≤ B) (hL : k.r ≤ L) (hR : k.r ≤ R) {i j : ℕ} (hi : i < pi.n) (hj : j < pi.m) :
    (applyI (k.coef .wrap pi.n pi.m) .wrap pi).get i j = aroundI k d valid ((i : ℤ) - T) ((j : ℤ) - L) := by
  have c1 := apply_zeros k .wrap (N := pi.n) (M := pi.m) zd (fun _ => ⟨rfl, rfl⟩) hT hB hL hR (i := i) (j := j) hi hj
  have c2 := apply_zeros k .wrap (N := pi.n) (M := pi.m) zv (fun _ => ⟨rfl, rfl⟩) hT hB hL hR (i := i) (j := j) hi hj
  have hn : pi.n = T + d.n + B := zd.n
  have hm : pi.m = L + d.m + R := zd.m
  have hs : validShare (k.coef .wrap pi.n pi.m) .wrap pi i j = around k valid ((i : ℤ) - T) ((j : ℤ) - L) := by
    rw [← c2]
    show (applyK (k.coef .wrap pi.n pi.m) (pi.map fun v => if v.isSome then 1 else 0)).get i j +
      (if DvBoundary.wrap = .wrap then 1 - ∑ u ∈ range pi.n, ∑ v ∈ range pi.m, k.wrapCoef pi.n pi.m i j u v else 0) = _
    rw [if_pos rfl, wrap_share_sum hk (by omega) i j, sub_self, add_zero]
  show (if _ then _ else _) = _
  unfold aroundI
  rw [hs, c1]

private theorem applyI_weights {k : Kern} {T B L R : ℕ} {w pw : Arr2 ℝ} (zw : Zeros T B L R w pw)
    (hT : k.r ≤ T) (hB : k.r ≤ B) (hL : k.r ≤ L) (hR : k.r ≤ R) {i j : ℕ} (hi : i < pw.n) (hj : j < pw.m) :
    (applyI (k.coef .wrap pw.n pw.m) .wrap (pw.map some)).get i j = some (around k w ((i : ℤ) - T) ((j : ℤ) - L)) := by
  have c1 := apply_zeros k .wrap (N := pw.n) (M := pw.m) zw (fun _ => ⟨rfl, rfl⟩) hT hB hL hR (i := i) (j := j) hi hj
  show (if _ then _ else _) = _
  rw [validShare_wrap _ _ _ _ (fun u _ v _ => by simp [Arr2.map]), if_neg (by norm_num), div_one]
  congr 1

private theorem filter_sums_interp {core ann : Kern} (hr : ann.r = core.r) (hcs : core.sum = 1) (has : ann.sum = 1) {c : ℝ} (hc : 0 ≤ c)
    (preserve : Bool) {d valid w : Arr2 ℝ} (hdn : d.n = w.n) (hdm : d.m = w.m) (hn0 : 0 < d.n) (hm0 : 0 < d.m) (gone : ℤ → ℤ → Bool)
    {T B L R : ℕ} {pi : Arr2 (Option ℝ)} {pw : Arr2 ℝ} (zd : Zeros T B L R d (pi.map (fun v => v.getD 0)))
    (zv : Zeros T B L R valid (pi.map fun v => if v.isSome then 1 else 0)) (zw : Zeros T B L R w pw)
    (hT : core.r ≤ T) (hB : core.r ≤ B) (hL : core.r ≤ L) (hR : core.r ≤ R)
    (hgone : ∀ i < pi.n, ∀ j < pi.m, (pi.get i j).isNone = gone ((i : ℤ) - T) ((j : ℤ) - L)) (K : Type) [AddCommMonoid K]
    (g : Option ℝ → Option ℝ → K) (hg : g none none = 0) :
    ∑ i ∈ range pi.n, ∑ j ∈ range pi.m, g ((dvFilterI (core.coef .wrap pi.n pi.m) (ann.coef .wrap pi.n pi.m) .wrap c preserve pi pw).1.get i j)
        ((dvFilterI (core.coef .wrap pi.n pi.m) (ann.coef .wrap pi.n pi.m) .wrap c preserve pi pw).2.get i j) =
      ∑ i ∈ range (w.n + 2 * core.r), ∑ j ∈ range (w.m + 2 * core.r),
        g (filteredI core ann c preserve d valid w gone ((i : ℤ) - core.r) ((j : ℤ) - core.r))
          (filteredW core ann c w ((i : ℤ) - core.r) ((j : ℤ) - core.r)) := by
  have en : pi.n = T + w.n + B := by rw [← hdn]; exact zd.n
  have em : pi.m = L + w.m + R := by rw [← hdm]; exact zd.m
  have ewn : pw.n = pi.n := by rw [en, zw.n]
  have ewm : pw.m = pi.m := by rw [em, zw.m]
  rw [← sum_box (T := T) (B := B) (L := L) (R := R) hT hB hL hR
    (fun x y => g (filteredI core ann c preserve d valid w gone x y) (filteredW core ann c w x y))]
  · rw [← en, ← em]
    refine sum_congr rfl fun i hi => sum_congr rfl fun j hj => ?_
    have hi := mem_range.1 hi
    have hj := mem_range.1 hj
    have c1 := applyI_image hcs hn0 hm0 zd zv hT hB hL hR hi hj
    have c2 := applyI_image has hn0 hm0 zd zv (hr ▸ hT) (hr ▸ hB) (hr ▸ hL) (hr ▸ hR) hi hj
    have c3 := applyI_weights (k := core) zw hT hB hL hR (i := i) (j := j) (by omega) (by omega)
    have c4 := applyI_weights (k := ann) zw (hr ▸ hT) (hr ▸ hB) (hr ▸ hL) (hr ▸ hR) (i := i) (j := j) (by omega) (by omega)
    rw [ewn, ewm] at c3 c4
    congr 1
    · show (if preserve ∧ (pi.get i j).isNone then none
        else subO (divO ((applyI (core.coef .wrap pi.n pi.m) .wrap pi).get i j)
          (((applyI (core.coef .wrap pi.n pi.m) .wrap (pw.map some)).get i j).bind (dvMask c)))
          (divO ((applyI (ann.coef .wrap pi.n pi.m) .wrap pi).get i j)
          (((applyI (ann.coef .wrap pi.n pi.m) .wrap (pw.map some)).get i j).bind (dvMask c)))) = _
      rw [c1, c2, c3, c4, hgone i hi j hj]
      rfl
    · show mulO (((applyI (core.coef .wrap pi.n pi.m) .wrap (pw.map some)).get i j).bind (dvMask c))
        (((applyI (ann.coef .wrap pi.n pi.m) .wrap (pw.map some)).get i j).bind (dvMask c)) = _
      rw [c3, c4]
      rfl
  · intro x y h
    beta_reduce
    unfold filteredI filteredW
    rw [around_far core w h, mask_zero hc, divO_none, show subO none (divO (aroundI ann d valid x y) (dvMask c (around ann w x y))) = none from rfl,
      ite_self, show mulO none (dvMask c (around ann w x y)) = none from rfl, hg]

private theorem radius_pos {lag : ℝ} (h : 1 ≤ lag) : 0 < (coreKernel lag).r := by
  simp only [coreKernel]
  have h2 : Real.sqrt 2 * Real.sqrt 2 = 2 := Real.mul_self_sqrt (by norm_num)
  have h0 : 0 < Real.sqrt 2 := Real.sqrt_pos.2 (by norm_num)
  have h6 : (8 : ℝ) * (lag / (2 * Real.sqrt 2)) = 2 * Real.sqrt 2 * lag := by
    field_simp
    nlinarith
  have h1 : (4 / 3 : ℝ) < Real.sqrt 2 := Real.lt_sqrt_of_sq_lt (by norm_num)
  have h3 : 2 < ⌈(8 : ℝ) * (lag / (2 * Real.sqrt 2))⌉₊ := by
    rw [h6, Nat.lt_ceil]
    push_cast
    nlinarith
  unfold kernRadius roundUpOdd
  split_ifs <;> omega

private theorem lag_wide_interp (junkI : ℕ → ℕ → Option ℝ) (junkW : ℕ → ℕ → ℝ) {frac : ℝ} (hf : 0 ≤ frac) (preserve : Bool) {ratio : ℝ}
    (hratio : 1 < ratio) {lag : ℝ} (hlag : 0 < lag) (hk : 0 < (coreKernel lag).r) {a : Arr2 (Option ℝ)} {w : Arr2 ℝ} (hn : w.n = a.n) (hm : w.m = a.m)
    (hn0 : 0 < a.n) (hm0 : 0 < a.m) (hw : ∀ i j, 0 ≤ w.get i j) {t b l r t' b' l' r' : ℕ} (ht : (coreKernel lag).r ≤ t) (hb : (coreKernel lag).r ≤ b)
    (hl : (coreKernel lag).r ≤ l) (hr : (coreKernel lag).r ≤ r) (ht' : (coreKernel lag).r ≤ t') (hb' : (coreKernel lag).r ≤ b')
    (hl' : (coreKernel lag).r ≤ l') (hr' : (coreKernel lag).r ≤ r') :
    deltaVarLagI junkI junkW .wrap frac preserve ratio lag (Spec.framed t b l r a) (Spec.framedWeights t b l r w) =
      deltaVarLagI junkI junkW .wrap frac preserve ratio lag (Spec.framed t' b' l' r' a) (Spec.framedWeights t' b' l' r' w) := by
  set d : Arr2 ℝ := ⟨a.n, a.m, fun i j => (mulO (a.get i j) (some (w.get i j))).getD 0⟩ with hd
  set valid : Arr2 ℝ := ⟨a.n, a.m, fun i j => if (mulO (a.get i j) (some (w.get i j))).isSome then 1 else 0⟩ with hv
  obtain ⟨-, hcs, has⟩ := C86_weights hlag hratio
  have has := (has hk).2
  have winn : ∀ t b l r : ℕ, ∀ i < w.n, ∀ j < w.m, (Spec.framedWeights t b l r w).get (t + i) (l + j) = w.get i j := by
    intro t b l r i hi j hj
    show (if _ then _ else _) = _
    rw [if_pos (by omega), Nat.add_sub_cancel_left, Nat.add_sub_cancel_left]
  have mulnone : ∀ (x : Option ℝ) (y : ℝ), (mulO x (some y)).isNone = x.isNone := by
    intro x y
    cases x <;> rfl
  obtain ⟨-, z, hz, hz0⟩ := max_framed t b l r hw (hn ▸ hn0) (hm ▸ hm0)
  have hc : 0 ≤ frac * z := mul_nonneg hf hz0
  have key : ∀ t b l r : ℕ, (coreKernel lag).r ≤ t → (coreKernel lag).r ≤ b → (coreKernel lag).r ≤ l → (coreKernel lag).r ≤ r →
      ∀ (K : Type) [AddCommMonoid K] (g : Option ℝ → Option ℝ → K), g none none = 0 → _ := fun t b l r ht hb hl hr K _ g hg =>
    filter_sums_interp (core := (coreKernel lag).normalised) (ann := (annulusKernel lag ratio).normalised) rfl hcs has hc preserve (d := d)
      (valid := valid) (w := w) hn.symm hm.symm hn0 hm0 (goneAt a) (T := t) (B := b) (L := l) (R := r)
      (pi := ⟨t + a.n + b, l + a.m + r, fun i j => mulO ((Spec.framed t b l r a).get i j) (some ((Spec.framedWeights t b l r w).get i j))⟩)
      (pw := Spec.framedWeights t b l r w)
      ⟨rfl, rfl, fun u hu v hv => by
        have hu' : u < a.n := hu
        have hv' : v < a.m := hv
        show (mulO ((Spec.framed t b l r a).get (t + u) (l + v)) (some ((Spec.framedWeights t b l r w).get (t + u) (l + v)))).getD 0 = _
        rw [framed_in t b l r a hu' hv', winn t b l r u (by omega) v (by omega)], fun i _ j _ h => by
        show (mulO ((Spec.framed t b l r a).get i j) _).getD 0 = 0
        rw [framed_out t b l r a h]
        rfl⟩
      ⟨rfl, rfl, fun u hu v hv => by
        have hu' : u < a.n := hu
        have hv' : v < a.m := hv
        show (if (mulO ((Spec.framed t b l r a).get (t + u) (l + v)) (some ((Spec.framedWeights t b l r w).get (t + u) (l + v)))).isSome
          then (1 : ℝ) else 0) = _
        rw [framed_in t b l r a hu' hv', winn t b l r u (by omega) v (by omega)], fun i _ j _ h => by
        show (if (mulO ((Spec.framed t b l r a).get i j) _).isSome then (1 : ℝ) else 0) = 0
        rw [framed_out t b l r a h]
        rfl⟩
      ⟨rfl, rfl, winn t b l r, fun i _ j _ h => if_neg h⟩ ht hb hl hr
      (fun i hi j hj => by
        show (mulO ((Spec.framed t b l r a).get i j) _).isNone = _
        rw [mulnone]
        unfold goneAt
        by_cases h : t ≤ i ∧ i < t + a.n ∧ l ≤ j ∧ j < l + a.m
        · have e := framed_in t b l r a (i := i - t) (j := j - l) (by omega) (by omega)
          rw [show t + (i - t) = i by omega, show l + (j - l) = j by omega] at e
          rw [e, if_pos (by omega), show ((i : ℤ) - t).toNat = i - t by omega, show ((j : ℤ) - l).toNat = j - l by omega]
        · rw [framed_out t b l r a h, if_neg (by omega)]
          rfl) K g hg
  unfold deltaVarLagI deltaVarAtI
  rw [(max_framed t b l r hw (hn ▸ hn0) (hm ▸ hm0)).1, (max_framed t' b' l' r' hw (hn ▸ hn0) (hm ▸ hm0)).1, hz]
  show Except.ok _ = Except.ok _
  congr 1
  exact delvar_eq lag rfl rfl rfl rfl fun M _ g hg => (key t b l r ht hb hl hr M g hg).trans (key t' b' l' r' ht' hb' hl' hr' M g hg).symm

/-- **Delta-variance with interpolation.** The same for `nan_treatment='interpolate'` with the default boundary 'wrap'. -/
theorem C122_delta_variance_interpolate (junkI : ℕ → ℕ → Option ℝ) (junkW : ℕ → ℕ → ℝ) {frac : ℝ} (hf : 0 ≤ frac) (preserve : Bool) {ratio : ℝ}
    (hratio : 1 < ratio) {lags : List ℝ} (hlag : ∀ lag ∈ lags, 1 ≤ lag) {a : Arr2 (Option ℝ)} {w : Arr2 ℝ} (hn : w.n = a.n) (hm : w.m = a.m)
    (hn0 : 0 < a.n) (hm0 : 0 < a.m) (hw : ∀ i j, 0 ≤ w.get i j) {ρ : ℕ} (hρ : ∀ lag ∈ lags, kernRadius (lag / (2 * Real.sqrt 2)) ≤ ρ)
    {t b l r t' b' l' r' : ℕ} (ht : ρ ≤ t) (hb : ρ ≤ b) (hl : ρ ≤ l) (hr : ρ ≤ r) (ht' : ρ ≤ t') (hb' : ρ ≤ b') (hl' : ρ ≤ l') (hr' : ρ ≤ r') :
    computeDeltavarNan true junkI junkW .wrap frac preserve ratio lags (Spec.framed t b l r a) (Spec.framedWeights t b l r w) =
      computeDeltavarNan true junkI junkW .wrap frac preserve ratio lags (Spec.framed t' b' l' r' a) (Spec.framedWeights t' b' l' r' w) := by
  unfold computeDeltavarNan
  rw [if_pos rfl, if_pos rfl]
  induction lags with
  | nil => rw [List.mapM_nil, List.mapM_nil]
  | cons lag lags ih =>
    rw [List.mapM_cons, List.mapM_cons, ih (fun x hx => hlag x (List.mem_cons_of_mem _ hx)) fun x hx => hρ x (List.mem_cons_of_mem _ hx)]
    have h1 := hlag lag List.mem_cons_self
    have h : (coreKernel lag).r ≤ ρ := by
      simp only [coreKernel]
      exact hρ lag List.mem_cons_self
    rw [lag_wide_interp junkI junkW hf preserve hratio (by linarith) (radius_pos h1) hn hm hn0 hm0 hw (t := t) (b := b) (l := l) (r := r) (t' := t')
      (b' := b') (l' := l') (r' := r') (h.trans ht) (h.trans hb) (h.trans hl) (h.trans hr) (h.trans ht') (h.trans hb') (h.trans hl') (h.trans hr')]

theorem kernRadius_three : kernRadius (3 / (2 * Real.sqrt 2)) = 4 := by
  have h2 : Real.sqrt 2 * Real.sqrt 2 = 2 := Real.mul_self_sqrt (by norm_num)
  have h0 : 0 < Real.sqrt 2 := Real.sqrt_pos.2 (by norm_num)
  have h6 : (8 : ℝ) * (3 / (2 * Real.sqrt 2)) = 6 * Real.sqrt 2 := by
    field_simp
    nlinarith
  have h : ⌈(8 : ℝ) * (3 / (2 * Real.sqrt 2))⌉₊ = 9 := by
    rw [h6, Nat.ceil_eq_iff (by norm_num)]
    constructor
    · have : (4 / 3 : ℝ) < Real.sqrt 2 := Real.lt_sqrt_of_sq_lt (by norm_num)
      norm_num
      linarith
    · have : Real.sqrt 2 ≤ 3 / 2 := Real.sqrt_le_iff.2 (by norm_num)
      norm_num
      linarith
  unfold kernRadius roundUpOdd
  rw [h]
  rfl

/-- At a lag of 3 pixels a frame of 4 pixels is wide enough. -/
example (a : Arr2 (Option ℝ)) (hn : 0 < a.n) (hm : 0 < a.m) (junkI : ℕ → ℕ → Option ℝ) (junkW : ℕ → ℕ → ℝ) :
    computeDeltavar junkI junkW .wrap 0.01 true 1.5 [3] (Spec.framed 4 4 4 4 a) (Spec.framedWeights 4 4 4 4 (a.map fun v => if v.isSome then 1 else 0)) =
      computeDeltavar junkI junkW .wrap 0.01 true 1.5 [3] (Spec.framed 5 9 4 7 a)
        (Spec.framedWeights 5 9 4 7 (a.map fun v => if v.isSome then 1 else 0)) := by
  refine C122_delta_variance junkI junkW .wrap (by norm_num) true 1.5 (lags := [3]) (ρ := 4) ?_ rfl rfl hn hm ?_ ?_ ?_ ?_ ?_ ?_ ?_ ?_ ?_ ?_
  · intro lag h
    rw [List.mem_singleton.1 h]
    norm_num
  · intro i j
    show 0 ≤ (if _ then (1 : ℝ) else 0)
    split_ifs <;> norm_num
  · intro lag h
    rw [List.mem_singleton.1 h, kernRadius_three]
  all_goals norm_num

/-- At a scale of one pixel a frame of 4 pixels is wide enough. -/
example (a : Arr2 (Option ℝ)) : (computeTransform .fill true [1] (Spec.framed 4 4 4 4 a)).map Prod.fst =
    (computeTransform .fill true [1] (Spec.framed 5 9 4 7 a)).map Prod.fst := by
  refine C122_wavelet .fill true 1 a ?_ ?_ ?_ ?_ ?_ ?_ ?_ ?_ <;> rw [kernRadius_one] <;> norm_num

/-- The default weights of a map within a frame are the framed default weights. -/
example (t b l r : ℕ) (a : Arr2 (Option ℝ)) :
    (Spec.framed t b l r a).map (fun v => if v.isSome then (1 : ℝ) else 0) = Spec.framedWeights t b l r (a.map fun v => if v.isSome then 1 else 0) := by
  have h : ∀ i j, (if ((Spec.framed t b l r a).get i j).isSome then (1 : ℝ) else 0) =
      (Spec.framedWeights t b l r (a.map fun v => if v.isSome then 1 else 0)).get i j := by
    intro i j
    unfold Spec.framed Spec.framedWeights
    by_cases h : t ≤ i ∧ i < t + a.n ∧ l ≤ j ∧ j < l + a.m <;> simp [h, Arr2.map]
  unfold Arr2.map
  simp only [h]
  rfl

end TS
