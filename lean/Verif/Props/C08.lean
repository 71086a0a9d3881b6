import Verif.Lemmas.Apodizing
import Verif.Spec.Window

/-! C08: apodizing windows are bounded tapers. -/

namespace TS

/-- **C08.** Every split-cosine-bell window, for all real `alpha`, `beta` and every 2D shape, is
a bounded, symmetric, radially non-increasing taper. -/
theorem C08_splitCosineBell_taper (alpha beta : ℝ) (n m : ℕ) :
    ∃ w, splitCosineBell alpha beta [n, m] = .ok w ∧ IsTaper w n m := by
  refine ⟨_, rfl, ?_⟩
  have cb : ∀ x : ℝ, 0 ≤ (1 / 2 : ℝ) * (1 + Real.cos x) ∧ (1 / 2 : ℝ) * (1 + Real.cos x) ≤ 1 := by
    intro x
    constructor
    · have := Real.neg_one_le_cos x; linarith
    · have := Real.cos_le_one x; linarith
  constructor
  · exact ⟨rfl, rfl⟩
  · intro i _ j _
    dsimp only
    split_ifs <;> first | exact le_refl _ | exact zero_le_one | exact (cb _).1
  · intro i _ j _
    dsimp only
    split_ifs <;> first | exact le_refl _ | exact zero_le_one | exact (cb _).2
  · intro i hi j _
    dsimp only
    rw [radialDistance_flip0 hi]
  · intro i _ j hj
    dsimp only
    rw [radialDistance_flip1 hj]
  · intro i hi j hj i' hi' j' hj' h
    have hd := radialDistance_mono h
    dsimp only
    set d := radialDistance n m i j
    set d' := radialDistance n m i' j'
    set ri := rInner beta n m
    set rt := rTaper alpha n m
    by_cases hc' : d' > ri + rt
    · rw [if_pos hc']
      split_ifs <;> first | exact le_refl _ | exact zero_le_one | exact (cb _).1
    · have hc : ¬ d > ri + rt := by intro h; exact hc' (lt_of_lt_of_le h hd)
      rw [if_neg hc', if_neg hc]
      by_cases h1 : d < ri
      · rw [if_pos h1]
        split_ifs <;> first | exact le_refl _ | exact (cb _).2
      · have h1' : ¬ d' < ri := by intro h; exact h1 (lt_of_le_of_lt hd h)
        rw [if_neg h1, if_neg h1']
        by_cases hrt : rt ≠ 0
        · rw [if_pos hrt, if_pos hrt]
          have hrt0 : (0 : ℝ) < rt := by
            have h2 : (0 : ℝ) ≤ rt := by push Not at hc h1; linarith
            exact lt_of_le_of_ne h2 (by exact_mod_cast hrt.symm)
          push Not at hc hc' h1 h1'
          have hpi := Real.pi_pos
          have e1 : 0 ≤ Real.pi * (d - ri) / rt := by
            apply div_nonneg _ hrt0.le
            exact mul_nonneg hpi.le (by linarith)
          have e2 : Real.pi * (d' - ri) / rt ≤ Real.pi := by
            rw [div_le_iff₀ hrt0]
            exact mul_le_mul_of_nonneg_left (by linarith) hpi.le
          have e3 : Real.pi * (d - ri) / rt ≤ Real.pi * (d' - ri) / rt := by
            apply div_le_div_of_nonneg_right _ hrt0.le
            exact mul_le_mul_of_nonneg_left (by linarith) hpi.le
          have := Real.cos_le_cos_of_nonneg_of_le_pi e1 e2 e3
          linarith
        · rw [if_neg hrt, if_neg hrt]

/-- **C08.** With `alpha ≥ 0` the window is exactly 1 closer than `beta * npts` to the centre,
and it is exactly 0 farther than `beta * npts + floor(alpha * npts)`, `npts = (min(n,m)-1)/2`. -/
theorem C08_splitCosineBell_plateau (alpha beta : ℝ) (ha : 0 ≤ alpha) (n m : ℕ) (hn : 0 < n)
    (hm : 0 < m) (w : Arr2 ℝ) (hw : splitCosineBell alpha beta [n, m] = .ok w) (i j : ℕ) :
    (Real.sqrt (((j : ℝ) - (m - 1) / 2) ^ 2 + ((i : ℝ) - (n - 1) / 2) ^ 2)
        < beta * (((min n m : ℕ) - 1) / 2) → w.get i j = 1) ∧
    (beta * (((min n m : ℕ) - 1) / 2) + ⌊alpha * ((((min n m : ℕ) : ℝ) - 1) / 2)⌋
        < Real.sqrt (((j : ℝ) - (m - 1) / 2) ^ 2 + ((i : ℝ) - (n - 1) / 2) ^ 2) →
      w.get i j = 0) := by
  simp only [splitCosineBell, Except.ok.injEq] at hw
  subst hw
  have hpos : (0 : ℝ) ≤ halfExtent n m := by
    unfold halfExtent
    have : (1 : ℝ) ≤ ((min n m : ℕ) : ℝ) := by
      have : 1 ≤ min n m := by omega
      exact_mod_cast this
    linarith
  have hrt : (0 : ℝ) ≤ (rTaper alpha n m : ℝ) := by
    have : (0 : ℤ) ≤ rTaper alpha n m := by
      unfold rTaper; exact Int.floor_nonneg.2 (mul_nonneg ha hpos)
    exact_mod_cast this
  constructor
  · intro h
    have h' : radialDistance n m i j < rInner beta n m := h
    dsimp only
    rw [if_neg (by push Not; linarith), if_pos h']
  · intro h
    have h' : rInner beta n m + rTaper alpha n m < radialDistance n m i j := h
    dsimp only
    rw [if_pos h']

/-- **C08.** The named windows are the documented special cases. -/
theorem C08_named_windows (alpha : ℝ) (shape : List ℕ) :
    hanningWindow shape = cosineBellWindow 1 shape ∧
    hanningWindow shape = tukeyWindow 1 shape ∧
    cosineBellWindow alpha shape = splitCosineBell alpha 0 shape ∧
    tukeyWindow alpha shape = splitCosineBell alpha (1 - alpha) shape := by
  refine ⟨rfl, ?_, rfl, rfl⟩
  unfold hanningWindow tukeyWindow
  norm_num

/-- **C08.** A shape that does not have exactly two entries is rejected with ValueError. -/
theorem C08_window_bad_shape (alpha beta : ℝ) (shape : List ℕ) (h : shape.length ≠ 2) :
    splitCosineBell alpha beta shape = .error .valueError := by
  match shape, h with
  | [], _ => rfl
  | [_], _ => rfl
  | [_, _], h => exact absurd rfl h
  | _ :: _ :: _ :: _, _ => rfl

/-- **C08.** `apodizing_kernel` produces a taper over the map's sky plane for every supported
window name, for images and for cubes, and rejects every other name. -/
theorem C08_apodizing_kernel (name : String) (alpha beta : ℝ) (c n m : ℕ) :
    (name ∈ ["splitcosinebell", "hanning", "tukey", "cosinebell"] →
      (∃ w, apodizingKernel name alpha beta [n, m] = .ok w ∧ IsTaper w n m) ∧
      (∃ w, apodizingKernel name alpha beta [c, n, m] = .ok w ∧ IsTaper w n m)) ∧
    (name ∉ ["splitcosinebell", "hanning", "tukey", "cosinebell"] →
      apodizingKernel name alpha beta [n, m] = .error .valueError) := by
  constructor
  · intro h
    simp only [List.mem_cons, List.not_mem_nil, or_false] at h
    rcases h with rfl | rfl | rfl | rfl <;>
      exact ⟨C08_splitCosineBell_taper _ _ n m, C08_splitCosineBell_taper _ _ n m⟩
  · intro h
    simp only [List.mem_cons, List.not_mem_nil, or_false, not_or] at h
    simp [apodizingKernel, h]

/-- Non-vacuity: in the 5×5 window with `alpha = beta = 1/2` the centre pixel is on the plateau
and the corner is cut. -/
example : (Real.sqrt (((2 : ℕ) - ((5 : ℕ) - 1 : ℝ) / 2) ^ 2 + (((2 : ℕ) : ℝ) - ((5 : ℕ) - 1) / 2) ^ 2)
    < (1 / 2) * (((min 5 5 : ℕ) - 1) / 2)) := by norm_num

end TS
