import Verif.Props.C62

/-! C37 — the walk-down width is the first 1/e crossing. -/

namespace TS
open Finset

namespace Spec

/-- `i` is the first index at which the curve is below `1/e` of its value at lag 0. -/
def FirstBelow (n : ℕ) (y : ℕ → ℝ) (i : ℕ) : Prop :=
  i < n ∧ y i < Real.exp (-1) * y 0 ∧ ∀ j < i, Real.exp (-1) * y 0 ≤ y j

/-- Where the straight line through `(i - 1, y (i-1))` and `(i, y i)` takes the value `1/e` of `y 0`. -/
def OnLine (y : ℕ → ℝ) (i : ℕ) (w : ℝ) : Prop :=
  y (i - 1) + (w - ((i : ℝ) - 1)) * (y i - y (i - 1)) = Real.exp (-1) * y 0

/-- The curve is largest at lag 0, where it is positive. -/
def PeakFirst (n : ℕ) (y : ℕ → ℝ) : Prop := 0 < y 0 ∧ ∀ j < n, y j ≤ y 0

end Spec

private theorem foldl_max_le {l : List ℝ} {x b : ℝ} (hx : x ≤ b) (h : ∀ v ∈ l, v ≤ b) :
    l.foldl max x ≤ b := by
  induction l generalizing x with
  | nil => exact hx
  | cons a l ih =>
    exact ih (max_le hx (h a (List.mem_cons_self ..))) (fun v hv => h v (List.mem_cons_of_mem _ hv))

private theorem le_foldl_max (l : List ℝ) (x : ℝ) : x ≤ l.foldl max x := by
  induction l generalizing x with
  | nil => exact le_rfl
  | cons a l ih => exact le_trans (le_max_left _ _) (ih _)

private theorem npMax_peak {n : ℕ} (hn : 0 < n) {y : ℕ → ℝ} (h : ∀ j < n, y j ≤ y 0) :
    npMax ((List.range n).map y) = .ok (y 0) := by
  obtain ⟨t, rfl⟩ : ∃ t, n = t + 1 := ⟨n - 1, by omega⟩
  rw [List.range_succ_eq_map, List.map_cons]
  unfold npMax
  simp only
  congr 1
  apply le_antisymm
  · apply foldl_max_le le_rfl
    intro v hv
    obtain ⟨j, hj, rfl⟩ := List.mem_map.1 hv
    obtain ⟨i, hi, rfl⟩ := List.mem_map.1 hj
    exact h _ (by have := List.mem_range.1 hi; omega)
  · exact le_foldl_max _ _

private theorem walkFrom_spec (n : ℕ) (y : ℕ → ℝ) (i : ℕ) (hi : i < n) (hb : y i < Real.exp (-1))
    (d : ℕ) : ∀ k, k + d = i → (∀ j, k ≤ j → j < i → Real.exp (-1) ≤ y j) →
    walkFrom n y k = some (lagAxis n (prevIx n i) +
      (Real.exp (-1) - y (prevIx n i)) / (y i - y (prevIx n i)), 0.5) := by
  induction d with
  | zero =>
    intro k hk _
    have : k = i := by omega
    subst this
    unfold walkFrom
    rw [if_pos hi, if_pos hb]
  | succ d ih =>
    intro k hk h
    unfold walkFrom
    rw [if_pos (by omega), if_neg (not_lt.2 (h k le_rfl (by omega)))]
    exact ih (k + 1) (by omega) (fun j h1 h2 => h j (by omega) h2)

private theorem walkFrom_none (n : ℕ) (y : ℕ → ℝ) (d : ℕ) :
    ∀ k, n ≤ k + d → (∀ j, k ≤ j → j < n → Real.exp (-1) ≤ y j) → walkFrom n y k = none := by
  induction d with
  | zero =>
    intro k hk _
    unfold walkFrom
    rw [if_neg (by omega)]
  | succ d ih =>
    intro k hk h
    unfold walkFrom
    split_ifs with h1 h2
    · exact absurd (h k le_rfl h1) (not_le.2 h2)
    · exact ih (k + 1) (by omega) (fun j h1 h2 => h j (by omega) h2)
    · rfl

/-- The lag axis counts up over the first half of the curve. -/
theorem lagAxis_half {n i : ℕ} (hi : i < n) (h : i ≤ (n - 1) / 2) : lagAxis n i = i := by
  unfold lagAxis fftfreq
  simp only
  rw [if_pos (by omega)]
  have : (n : ℝ) ≠ 0 := by
    have : 0 < n := by omega
    positivity
  field_simp

/-- ... and jumps to negative lags after it. -/
theorem lagAxis_second {n i : ℕ} (hi : i < n) (h : (n - 1) / 2 < i) : lagAxis n i = (i : ℝ) - n := by
  unfold lagAxis fftfreq
  simp only
  rw [if_neg (by omega)]
  have : (n : ℝ) ≠ 0 := by
    have : 0 < n := by omega
    positivity
  field_simp

/-- The bracket: the width lies between the last lag at or above 1/e and the first one below, at the
point where the straight line between them takes the value 1/e; the error is half a lag. -/
theorem C37_bracket (y : Arr1 ℝ) (i : ℕ) (hp : Spec.PeakFirst y.n y.get) (hi : Spec.FirstBelow y.n y.get i)
    (hhalf : i ≤ (y.n - 1) / 2 + 1) :
    ∃ w, walkDown y = .ok (some (w, 0.5)) ∧ (i : ℝ) - 1 ≤ w ∧ w < i ∧ Spec.OnLine y.get i w := by
  have hn : 0 < y.n := by have := hi.1; omega
  have he1 : Real.exp (-1) < 1 := by rw [Real.exp_lt_one_iff]; norm_num
  have hi0 : i ≠ 0 := by
    rintro rfl
    have := hi.2.1
    nlinarith [hp.1]
  have hprev : prevIx y.n i = i - 1 := by unfold prevIx; rw [if_neg hi0]
  have hd : ∀ j, (y.get j / y.get 0 < Real.exp (-1) ↔ y.get j < Real.exp (-1) * y.get 0) := by
    intro j; rw [div_lt_iff₀ hp.1]
  have hge : Real.exp (-1) * y.get 0 ≤ y.get (i - 1) := hi.2.2 (i - 1) (by omega)
  have hlt := hi.2.1
  have hax : lagAxis y.n (i - 1) = (i : ℝ) - 1 := by
    rw [lagAxis_half (by have := hi.1; omega) (by omega), Nat.cast_sub (by omega)]; simp
  refine ⟨((i : ℝ) - 1) + (Real.exp (-1) - y.get (i - 1) / y.get 0) /
    (y.get i / y.get 0 - y.get (i - 1) / y.get 0), ?_, ?_, ?_, ?_⟩
  · unfold walkDown
    rw [npMax_peak hn hp.2]
    simp only [bind, Except.bind, pure, Except.pure, if_neg hp.1.ne']
    rw [walkFrom_spec y.n _ i hi.1 ((hd i).2 hlt) i 0 (by omega) (fun j _ hj => by
      rw [le_div_iff₀ hp.1]; exact hi.2.2 j hj), hprev, hax]
  · have hq : (Real.exp (-1) - y.get (i - 1) / y.get 0) / (y.get i / y.get 0 - y.get (i - 1) / y.get 0) =
        (y.get (i - 1) - Real.exp (-1) * y.get 0) / (y.get (i - 1) - y.get i) := by
      have h0 := hp.1.ne'
      rw [div_sub_div_same, show Real.exp (-1) - y.get (i - 1) / y.get 0 =
        (Real.exp (-1) * y.get 0 - y.get (i - 1)) / y.get 0 by field_simp, div_div_div_cancel_right₀ h0,
        ← neg_div_neg_eq, neg_sub, neg_sub]
    rw [hq]
    have : 0 ≤ (y.get (i - 1) - Real.exp (-1) * y.get 0) / (y.get (i - 1) - y.get i) :=
      div_nonneg (by linarith) (by linarith)
    linarith
  · have hq : (Real.exp (-1) - y.get (i - 1) / y.get 0) / (y.get i / y.get 0 - y.get (i - 1) / y.get 0) =
        (y.get (i - 1) - Real.exp (-1) * y.get 0) / (y.get (i - 1) - y.get i) := by
      have h0 := hp.1.ne'
      rw [div_sub_div_same, show Real.exp (-1) - y.get (i - 1) / y.get 0 =
        (Real.exp (-1) * y.get 0 - y.get (i - 1)) / y.get 0 by field_simp, div_div_div_cancel_right₀ h0,
        ← neg_div_neg_eq, neg_sub, neg_sub]
    rw [hq]
    have : (y.get (i - 1) - Real.exp (-1) * y.get 0) / (y.get (i - 1) - y.get i) < 1 := by
      rw [div_lt_one (by linarith)]; linarith
    linarith
  · unfold Spec.OnLine
    have h0 := hp.1.ne'
    have h1 : y.get i - y.get (i - 1) ≠ 0 := by
      intro h; linarith
    rw [div_sub_div_same]
    field_simp
    ring

/-- The curve that never falls below 1/e has no width. -/
theorem C37_no_crossing (y : Arr1 ℝ) (hn : 0 < y.n) (hp : Spec.PeakFirst y.n y.get)
    (h : ∀ j < y.n, Real.exp (-1) * y.get 0 ≤ y.get j) : walkDown y = .ok none := by
  unfold walkDown
  rw [npMax_peak hn hp.2]
  simp only [bind, Except.bind, pure, Except.pure, if_neg hp.1.ne']
  rw [walkFrom_none y.n _ y.n 0 (by omega) (fun j _ hj => by rw [le_div_iff₀ hp.1]; exact h j hj)]

/-- On a symmetric curve the first crossing is always in the first half. -/
theorem C37_symmetric_half (n : ℕ) (y : ℕ → ℝ) (i : ℕ) (hi : Spec.FirstBelow n y i)
    (hs : ∀ j, j ≠ 0 → j < n → y (n - j) = y j) : i ≤ (n - 1) / 2 + 1 := by
  by_contra hc
  have he1 : Real.exp (-1) < 1 := by rw [Real.exp_lt_one_iff]; norm_num
  have hi0 : i ≠ 0 := by omega
  have h1 := hs i hi0 hi.1
  have h2 := hi.2.2 (n - i) (by have := hi.1; omega)
  rw [h1] at h2
  linarith [hi.2.1]

/-- The whole chain: for every eigenvector, the width of its autocorrelation spectrum is NaN when that
never falls below 1/e of its peak (or vanishes), and otherwise lies in the bracket of the first
crossing. -/
theorem C37_eigenspectra (n : ℕ) (hn : 0 < n) (v : ℕ → ℝ) :
    ((∀ j < n, Real.exp (-1) * (acorSpec n v).get 0 ≤ (acorSpec n v).get j) →
      walkDown (acorSpec n v) = .ok none) ∧
    (∀ i, Spec.FirstBelow n (acorSpec n v).get i →
      ∃ w, walkDown (acorSpec n v) = .ok (some (w, 0.5)) ∧ (i : ℝ) - 1 ≤ w ∧ w < i ∧
        Spec.OnLine (acorSpec n v).get i w) := by
  have hN : (acorSpec n v).n = n := rfl
  have hle : ∀ j < n, (acorSpec n v).get j ≤ (acorSpec n v).get 0 := fun j hj => (C62_spectrum_shape n v j hj).1
  have h0 := (C62_spectrum_shape n v 0 hn).2.1
  constructor
  · intro h
    rcases h0.lt_or_eq with hpos | hz
    · exact C37_no_crossing (acorSpec n v) hn ⟨hpos, hle⟩ h
    · unfold walkDown
      rw [hN, npMax_peak hn hle]
      simp only [bind, Except.bind, pure, Except.pure, if_pos hz.symm]
  · intro i hi
    have he0 := Real.exp_pos (-1)
    have hpos : 0 < (acorSpec n v).get 0 := by
      rcases h0.lt_or_eq with hpos | hz
      · exact hpos
      · exfalso
        -- the peak is zero: every entry of the headless vector vanishes, and so does the curve
        have hz' := hz.symm
        rw [C62_spectrum_partial n v 0 hn, Nat.cast_zero, circAcf1_zero,
          sum_eq_zero_iff_of_nonneg (fun b _ => sq_nonneg _)] at hz'
        have : (acorSpec n v).get i = 0 := by
          rw [C62_spectrum_partial n v i hi.1]
          unfold Spec.circAcf1
          apply sum_eq_zero
          intro b hb
          rw [pow_eq_zero_iff two_ne_zero |>.1 (hz' b hb), mul_zero]
        have h1 := hi.2.1
        rw [this, ← hz, mul_zero] at h1
        exact lt_irrefl _ h1
    exact C37_bracket (acorSpec n v) i ⟨hpos, hle⟩ hi
      (C37_symmetric_half n _ i hi (fun j h1 h2 => (C62_spectrum_shape n v j h2).2.2 h1))

/-- On a curve that is not symmetric the crossing may come in the second half, and then the "width" is
negative. -/
theorem C37_second_half_negative (y : Arr1 ℝ) (i : ℕ) (hp : Spec.PeakFirst y.n y.get)
    (hi : Spec.FirstBelow y.n y.get i) (hhalf : (y.n - 1) / 2 + 1 < i) :
    ∃ w, walkDown y = .ok (some (w, 0.5)) ∧ w < 0 := by
  have hn : 0 < y.n := by have := hi.1; omega
  have hprev : prevIx y.n i = i - 1 := by unfold prevIx; rw [if_neg (by omega)]
  have hd : ∀ j, (y.get j / y.get 0 < Real.exp (-1) ↔ y.get j < Real.exp (-1) * y.get 0) := by
    intro j; rw [div_lt_iff₀ hp.1]
  have hge : Real.exp (-1) * y.get 0 ≤ y.get (i - 1) := hi.2.2 (i - 1) (by omega)
  have hlt := hi.2.1
  have hax : lagAxis y.n (i - 1) = ((i - 1 : ℕ) : ℝ) - y.n :=
    lagAxis_second (by have := hi.1; omega) (by omega)
  refine ⟨((i - 1 : ℕ) : ℝ) - y.n + (Real.exp (-1) - y.get (i - 1) / y.get 0) /
    (y.get i / y.get 0 - y.get (i - 1) / y.get 0), ?_, ?_⟩
  · unfold walkDown
    rw [npMax_peak hn hp.2]
    simp only [bind, Except.bind, pure, Except.pure, if_neg hp.1.ne']
    rw [walkFrom_spec y.n _ i hi.1 ((hd i).2 hlt) i 0 (by omega) (fun j _ hj => by
      rw [le_div_iff₀ hp.1]; exact hi.2.2 j hj), hprev, hax]
  · have hq : (Real.exp (-1) - y.get (i - 1) / y.get 0) / (y.get i / y.get 0 - y.get (i - 1) / y.get 0) =
        (y.get (i - 1) - Real.exp (-1) * y.get 0) / (y.get (i - 1) - y.get i) := by
      have h0 := hp.1.ne'
      rw [div_sub_div_same, show Real.exp (-1) - y.get (i - 1) / y.get 0 =
        (Real.exp (-1) * y.get 0 - y.get (i - 1)) / y.get 0 by field_simp, div_div_div_cancel_right₀ h0,
        ← neg_div_neg_eq, neg_sub, neg_sub]
    rw [hq]
    have : (y.get (i - 1) - Real.exp (-1) * y.get 0) / (y.get (i - 1) - y.get i) < 1 := by
      rw [div_lt_one (by linarith)]; linarith
    have h2 : ((i - 1 : ℕ) : ℝ) + 1 ≤ y.n := by
      have := hi.1
      exact_mod_cast (by omega : i - 1 + 1 ≤ y.n)
    linarith

/-- Non-vacuity: a curve that peaks first and crosses at lag 2. -/
example : Spec.PeakFirst 5 (fun i => if i = 0 then 1 else if i = 1 ∨ i = 4 then 0.5 else 0) ∧
    Spec.FirstBelow 5 (fun i => if i = 0 then 1 else if i = 1 ∨ i = 4 then 0.5 else 0) 2 := by
  have he : Real.exp (-1) ≤ 0.5 := by
    rw [Real.exp_neg]
    have : (2 : ℝ) ≤ Real.exp 1 := by have := Real.add_one_le_exp 1; linarith
    calc (Real.exp 1)⁻¹ ≤ (2 : ℝ)⁻¹ := inv_anti₀ (by norm_num) this
      _ = 0.5 := by norm_num
  refine ⟨⟨by simp, ?_⟩, by norm_num, ?_, ?_⟩
  · intro j _; simp only; split_ifs <;> norm_num
  · simp [Real.exp_pos]
  · intro j hj
    interval_cases j
    · simp
    · simpa using he

end TS
