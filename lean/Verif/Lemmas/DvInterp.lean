import Verif.Model.DvInterp
import Verif.Props.C38
import Verif.Props.C86

/-! Lemmas on the delta-variance with interpolation over missing pixels. -/

namespace TS
open Finset

theorem applyK_zero_share (coef : ℕ → ℕ → ℕ → ℕ → ℝ) (b : DvBoundary) (a : Arr2 (Option ℝ)) (i j : ℕ)
    (h : ∀ u < a.n, ∀ v < a.m, a.get u v ≠ none) :
    validShare coef b a i j = (∑ u ∈ range a.n, ∑ v ∈ range a.m, coef i j u v) +
      (if b = .wrap then 1 - ∑ u ∈ range a.n, ∑ v ∈ range a.m, coef i j u v else 0) := by
  unfold validShare
  congr 1
  refine sum_congr rfl fun u hu => sum_congr rfl fun v hv => ?_
  rw [if_pos (Option.isSome_iff_ne_none.2 (h u (mem_range.1 hu) v (mem_range.1 hv))), mul_one]

/-- Without missing pixels and with `boundary='wrap'` the whole kernel lies on values. -/
theorem validShare_wrap (coef : ℕ → ℕ → ℕ → ℕ → ℝ) (a : Arr2 (Option ℝ)) (i j : ℕ)
    (h : ∀ u < a.n, ∀ v < a.m, a.get u v ≠ none) : validShare coef .wrap a i j = 1 := by
  rw [applyK_zero_share coef .wrap a i j h, if_pos rfl]
  ring

theorem validShare_congr (coef : ℕ → ℕ → ℕ → ℕ → ℝ) (b : DvBoundary) {a a' : Arr2 (Option ℝ)} (hn : a'.n = a.n) (hm : a'.m = a.m)
    (h : ∀ u < a.n, ∀ v < a.m, (a'.get u v).isNone = (a.get u v).isNone) (i j : ℕ) :
    validShare coef b a' i j = validShare coef b a i j := by
  unfold validShare
  rw [hn, hm]
  congr 1
  refine sum_congr rfl fun u hu => sum_congr rfl fun v hv => ?_
  have := h u (mem_range.1 hu) v (mem_range.1 hv)
  congr 1
  cases h1 : a'.get u v <;> cases h2 : a.get u v <;> simp [h1, h2] at this ⊢

/-- The convolution of the valid pixels is linear as long as the same pixels are missing. -/
theorem applyI_lin (coef : ℕ → ℕ → ℕ → ℕ → ℝ) (b : DvBoundary) {x y z : Arr2 (Option ℝ)} {c d : ℝ} (hn : y.n = x.n) (hm : y.m = x.m)
    (hn' : z.n = x.n) (hm' : z.m = x.m)
    (h : ∀ u < x.n, ∀ v < x.m, (y.get u v).isNone = (x.get u v).isNone ∧ (z.get u v).isNone = (x.get u v).isNone ∧
      (z.get u v).getD 0 = c * (x.get u v).getD 0 + d * (y.get u v).getD 0) (i j : ℕ) :
    (validShare coef b x i j ≤ 0 ∧ (applyI coef b x).get i j = none ∧ (applyI coef b y).get i j = none ∧ (applyI coef b z).get i j = none) ∨
    ∃ p q, (applyI coef b x).get i j = some p ∧ (applyI coef b y).get i j = some q ∧ (applyI coef b z).get i j = some (c * p + d * q) := by
  have sy := validShare_congr coef b hn hm (fun u hu v hv => (h u hu v hv).1) i j
  have sz := validShare_congr coef b hn' hm' (fun u hu v hv => (h u hu v hv).2.1) i j
  have key : (applyK coef (z.map (fun v => v.getD 0))).get i j =
      c * (applyK coef (x.map (fun v => v.getD 0))).get i j + d * (applyK coef (y.map (fun v => v.getD 0))).get i j := by
    rw [← applyK_lin coef (x.map (fun v => v.getD 0)) (y.map (fun v => v.getD 0)) c d x.n x.m i j ⟨rfl, rfl⟩ ⟨hn, hm⟩]
    apply applyK_congr
    · exact hn'
    · exact hm'
    · intro u hu v hv
      exact (h u (by rw [← hn']; exact hu) v (by rw [← hm']; exact hv)).2.2
  by_cases hs : validShare coef b x i j ≤ 0
  · left
    refine ⟨hs, ?_, ?_, ?_⟩ <;> simp only [applyI, sy, sz, hs, if_true]
  · right
    refine ⟨_, _, by simp only [applyI, hs, if_false]; rfl, by simp only [applyI, sy, hs, if_false]; rfl, ?_⟩
    simp only [applyI, sz, hs, if_false, key, Option.some.injEq]
    ring

theorem wrap_share_sum {k : Kern} (hk : k.sum = 1) {n m : ℕ} (hfit : 2 * k.r + 1 ≤ min n m) (i j : ℕ) :
    ∑ u ∈ range n, ∑ v ∈ range m, k.wrapCoef n m i j u v = 1 := by
  have hw := dv_wrap_ones k n m i j _ _ rfl rfl
  have e : (applyK (k.wrapCoef n m) ⟨n, m, fun _ _ => 1⟩).get i j = ∑ u ∈ range n, ∑ v ∈ range m, k.wrapCoef n m i j u v := by
    simp only [applyK, mul_one]
  rw [← e, hw, ← hk]
  refine sum_congr rfl fun a _ => sum_congr rfl fun b _ => ?_
  rw [if_pos]
  have e1 : max n (2 * k.r + 1) = n := by omega
  have e2 : max m (2 * k.r + 1) = m := by omega
  rw [e1, e2]
  exact ⟨Int.emod_lt_of_pos _ (by omega), Int.emod_lt_of_pos _ (by omega)⟩

/-- When a delta-variance is defined: everywhere finite, positive weights, and two pixels at different distances from the mean. -/
theorem delvar_defined (arr wt : Arr2 (Option ℝ)) (hn : wt.n = arr.n) (hm : wt.m = arr.m) (lag : ℝ) (D W : ℕ → ℕ → ℝ)
    (ha : ∀ i < arr.n, ∀ j < arr.m, arr.get i j = some (D i j)) (hw : ∀ i < arr.n, ∀ j < arr.m, wt.get i j = some (W i j))
    (hpos : ∀ i < arr.n, ∀ j < arr.m, 0 < W i j)
    (hd : ∀ μ, μ * (arr.n * arr.m) = (∑ i ∈ range arr.n, ∑ j ∈ range arr.m, D i j) → ∃ i < arr.n, ∃ j < arr.m, ∃ k < arr.n, ∃ l < arr.m,
      (D i j - μ) ^ 2 ≠ (D k l - μ) ^ 2) :
    ∃ v e, delvar arr wt lag = some (v, e) ∧ 0 < v := by
  set S := range arr.n ×ˢ range arr.m with hS
  have hlt : ∀ q ∈ S, q.1 < arr.n ∧ q.2 < arr.m := fun q hq => by simpa [hS] using hq
  have hfin : arr.nFinite = arr.n * arr.m := by
    unfold Arr2.nFinite
    rw [sum_congr rfl fun i hi => sum_congr rfl fun j hj => by rw [ha i (mem_range.1 hi) j (mem_range.1 hj)]]
    simp
  have hA : arr.nansum = ∑ i ∈ range arr.n, ∑ j ∈ range arr.m, D i j := by
    unfold Arr2.nansum
    exact sum_congr rfl fun i hi => sum_congr rfl fun j hj => by rw [ha i (mem_range.1 hi) j (mem_range.1 hj)]; rfl
  have hW : wt.nansum = ∑ q ∈ S, W q.1 q.2 := by
    unfold Arr2.nansum
    rw [hn, hm, hS, sum_product]
    exact sum_congr rfl fun i hi => sum_congr rfl fun j hj => by rw [hw i (mem_range.1 hi) j (mem_range.1 hj)]; rfl
  have hne : (arr.n : ℝ) * arr.m ≠ 0 := by
    intro h0
    have hN : arr.n * arr.m = 0 := by exact_mod_cast h0
    have hz : (∑ i ∈ range arr.n, ∑ j ∈ range arr.m, D i j) = 0 := by
      rcases Nat.mul_eq_zero.1 hN with h | h <;> simp [h]
    obtain ⟨i, hi, j, hj, -⟩ := hd 0 (by rw [zero_mul, hz])
    rcases Nat.mul_eq_zero.1 hN with h | h <;> omega
  set μ := (∑ i ∈ range arr.n, ∑ j ∈ range arr.m, D i j) / (arr.n * arr.m : ℝ) with hμ
  have hmean : divO (some arr.nansum) (some (arr.nFinite : ℝ)) = some μ := by
    rw [hA, hfin]
    simp only [divO, bind, Option.bind]
    push_cast
    rw [if_neg hne]
  obtain ⟨i, hi, j, hj, k, hk, l, hl, hdiff⟩ := hd μ (by rw [hμ, div_mul_cancel₀ _ hne])
  have hmom : ∀ p : ℕ, (⟨arr.n, arr.m, fun i j => mulO ((subO (arr.get i j)
        (divO (some arr.nansum) (some arr.nFinite))).map (· ^ p)) (wt.get i j)⟩ : Arr2 (Option ℝ)).nansum =
      ∑ q ∈ S, (D q.1 q.2 - μ) ^ p * W q.1 q.2 := by
    intro p
    rw [hmean]
    unfold Arr2.nansum
    rw [hS, sum_product]
    refine sum_congr rfl fun i hi => sum_congr rfl fun j hj => ?_
    simp only
    rw [ha i (mem_range.1 hi) j (mem_range.1 hj), hw i (mem_range.1 hi) j (mem_range.1 hj)]
    rfl
  have hWpos : 0 < ∑ q ∈ S, W q.1 q.2 :=
    sum_pos (fun q hq => hpos _ (hlt q hq).1 _ (hlt q hq).2) ⟨(i, j), by simp [hS, hi, hj]⟩
  have h2 : 0 < ∑ q ∈ S, (D q.1 q.2 - μ) ^ 2 * W q.1 q.2 := by
    apply sum_pos' (fun q hq => mul_nonneg (sq_nonneg _) (hpos _ (hlt q hq).1 _ (hlt q hq).2).le)
    by_cases h0 : (D i j - μ) ^ 2 = 0
    · exact ⟨(k, l), by simp [hS, hk, hl], mul_pos (lt_of_le_of_ne (sq_nonneg _) (by rw [← h0]; exact hdiff)) (hpos k hk l hl)⟩
    · exact ⟨(i, j), by simp [hS, hi, hj], mul_pos (lt_of_le_of_ne (sq_nonneg _) (Ne.symm h0)) (hpos i hi j hj)⟩
  set Wt := ∑ q ∈ S, W q.1 q.2 with hWt
  set S2 := ∑ q ∈ S, (D q.1 q.2 - μ) ^ 2 * W q.1 q.2 with hS2
  set S4 := ∑ q ∈ S, (D q.1 q.2 - μ) ^ 4 * W q.1 q.2 with hS4
  have h4 : 0 < S4 / Wt - (S2 / Wt) ^ 2 := by
    have hsq : 0 < ∑ q ∈ S, ((D q.1 q.2 - μ) ^ 2 - S2 / Wt) ^ 2 * W q.1 q.2 := by
      apply sum_pos' (fun q hq => mul_nonneg (sq_nonneg _) (hpos _ (hlt q hq).1 _ (hlt q hq).2).le)
      by_cases h0 : (D i j - μ) ^ 2 - S2 / Wt = 0
      · refine ⟨(k, l), by simp [hS, hk, hl], mul_pos (sq_pos_of_ne_zero fun h1 => hdiff ?_) (hpos k hk l hl)⟩
        simp only at h1
        linarith
      · exact ⟨(i, j), by simp [hS, hi, hj], mul_pos (sq_pos_of_ne_zero h0) (hpos i hi j hj)⟩
    have e : ∑ q ∈ S, ((D q.1 q.2 - μ) ^ 2 - S2 / Wt) ^ 2 * W q.1 q.2 = S4 - 2 * (S2 / Wt) * S2 + (S2 / Wt) ^ 2 * Wt := by
      rw [hS4, mul_sum, hWt, mul_sum, ← sum_sub_distrib, ← sum_add_distrib]
      refine sum_congr rfl fun q _ => ?_
      ring
    rw [e] at hsq
    have e2 : S4 / Wt - (S2 / Wt) ^ 2 = (S4 - 2 * (S2 / Wt) * S2 + (S2 / Wt) ^ 2 * Wt) / Wt := by
      field_simp
      ring
    rw [e2]
    exact div_pos hsq hWpos
  have hv : 0 < S2 / Wt := div_pos h2 hWpos
  unfold delvar
  simp only [hmom, hW]
  rw [if_neg hWpos.ne', ← hS2, ← hS4]
  rw [if_neg (by rw [not_or, not_le, not_lt]; exact ⟨hv, h4.le⟩)]
  by_cases hN : √((((⟨arr.n, arr.m, fun i j => subO (arr.get i j) (divO (some arr.nansum) (some (arr.nFinite : ℝ)))⟩ : Arr2 (Option ℝ)).nFinite
      / kernArea lag : ℕ)) : ℝ) = 0
  · rw [if_pos hN, if_neg h4.ne']
    exact ⟨_, _, rfl, hv⟩
  · rw [if_neg hN, if_neg (not_le.2 (div_pos (Real.sqrt_pos.2 h4) (lt_of_le_of_ne (Real.sqrt_nonneg _) (Ne.symm hN))))]
    exact ⟨_, _, rfl, hv⟩

end TS
