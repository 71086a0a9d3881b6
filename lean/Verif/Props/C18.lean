import Verif.Model.StatsUtils

/-! C18 — the data normalisations. -/

namespace TS

private theorem map_eq_affine {x : List (Option ℝ)} {f : Option ℝ → Option ℝ} {g : ℝ → ℝ}
    (hn : f none = none) (hs : ∀ v, f (some v) = some (g v)) : x.map f = x.map (Option.map g) := by
  apply List.map_congr_left
  intro v _
  cases v with
  | none => rw [hn]; rfl
  | some v => rw [hs]; rfl

/-- The data have a mean `m` and a positive standard deviation. -/
private theorem spread {x : List (Option ℝ)} {a b : ℝ} (ha : some a ∈ x) (hb : some b ∈ x) (hab : a ≠ b) :
    ∃ m s, meanO (validVals x) = some m ∧ varO (validVals x) = some s ∧ 0 < s := by
  have ha' := mem_validVals.2 ha
  have hne : validVals x ≠ [] := by intro h; rw [h] at ha'; simp at ha'
  obtain ⟨m, hm⟩ := exists_meanO hne
  obtain ⟨s, hs⟩ := exists_varO hne
  exact ⟨m, s, hm, hs, varO_pos hs ha' (mem_validVals.2 hb) hab⟩

private theorem standardize_eq {x : List (Option ℝ)} {m s : ℝ} (hm : meanO (validVals x) = some m)
    (hs : varO (validVals x) = some s) (hpos : 0 < s) :
    standardize x = x.map (Option.map (fun v => (1 / Real.sqrt s) * v + -(m / Real.sqrt s))) := by
  have h0 : Real.sqrt s ≠ 0 := (Real.sqrt_pos.2 hpos).ne'
  unfold standardize nanmean nanstd
  rw [hm, hs]
  apply map_eq_affine
  · rfl
  · intro v
    simp only [divO, subO, Option.map_some]
    show (if Real.sqrt s = 0 then none else some ((v - m) / Real.sqrt s)) = _
    rw [if_neg h0]
    congr 1
    field_simp
    ring

/-- `standardize`: missing values stay missing (and only those), the mean of the result is 0 and its
standard deviation 1. -/
theorem C18_standardize (x : List (Option ℝ)) (a b : ℝ) (ha : some a ∈ x) (hb : some b ∈ x)
    (hab : a ≠ b) :
    (standardize x).map Option.isSome = x.map Option.isSome ∧
    nanmean (standardize x) = some 0 ∧ nanstd (standardize x) = some 1 := by
  obtain ⟨m, s, hm, hs, hpos⟩ := spread ha hb hab
  have h0 : Real.sqrt s ≠ 0 := (Real.sqrt_pos.2 hpos).ne'
  rw [standardize_eq hm hs hpos]
  refine ⟨?_, ?_, ?_⟩
  · rw [List.map_map]; apply List.map_congr_left; intro v _; cases v <;> rfl
  · unfold nanmean
    rw [validVals_map, meanO_affine hm]
    congr 1; field_simp; ring
  · unfold nanstd
    rw [validVals_map, varO_affine hs, Option.map_some]
    congr 1
    rw [div_pow, one_pow, Real.sq_sqrt hpos.le, one_div, inv_mul_cancel₀ hpos.ne', Real.sqrt_one]

/-- `center`: mean 0 (one valid value is enough), spread unchanged. -/
theorem C18_center (x : List (Option ℝ)) (a : ℝ) (ha : some a ∈ x) :
    (center x).map Option.isSome = x.map Option.isSome ∧
    nanmean (center x) = some 0 ∧ nanstd (center x) = nanstd x := by
  have ha' := mem_validVals.2 ha
  have hne : validVals x ≠ [] := by intro h; rw [h] at ha'; simp at ha'
  obtain ⟨m, hm⟩ := exists_meanO hne
  obtain ⟨s, hs⟩ := exists_varO hne
  have e : center x = x.map (Option.map (fun v => 1 * v + -m)) := by
    unfold center nanmean
    rw [hm]
    apply map_eq_affine
    · rfl
    · intro v
      show some (v - m) = some (1 * v + -m)
      congr 1; ring
  rw [e]
  refine ⟨?_, ?_, ?_⟩
  · rw [List.map_map]; apply List.map_congr_left; intro v _; cases v <;> rfl
  · unfold nanmean
    rw [validVals_map, meanO_affine hm]
    congr 1; ring
  · unfold nanstd
    rw [validVals_map, varO_affine hs, hs]
    simp

private theorem normalize_eq {x : List (Option ℝ)} {lo hi : ℝ} (hlo : minO (validVals x) = some lo)
    (hhi : maxO (validVals x) = some hi) (hlt : lo < hi) :
    normalize x = x.map (Option.map (fun v => (v - lo) / (hi - lo))) := by
  unfold normalize nanmin nanmax
  rw [hlo, hhi]
  apply map_eq_affine
  · rfl
  · intro v
    show (if hi - lo = 0 then none else some ((v - lo) / (hi - lo))) = _
    rw [if_neg (by linarith)]

private theorem extremes {x : List (Option ℝ)} {a b : ℝ} (ha : some a ∈ x) (hb : some b ∈ x) (hab : a ≠ b) :
    ∃ lo hi, minO (validVals x) = some lo ∧ maxO (validVals x) = some hi ∧ lo < hi := by
  have ha' := mem_validVals.2 ha
  have hb' := mem_validVals.2 hb
  have hne : validVals x ≠ [] := by intro h; rw [h] at ha'; simp at ha'
  obtain ⟨lo, hlo⟩ := exists_minO hne
  obtain ⟨hi, hhi⟩ := exists_maxO hne
  refine ⟨lo, hi, hlo, hhi, ?_⟩
  have h1 := (minO_eq_some.1 hlo).2
  have h2 := (maxO_eq_some.1 hhi).2
  rcases lt_or_gt_of_ne hab with h | h
  · exact lt_of_le_of_lt (h1 a ha') (lt_of_lt_of_le h (h2 b hb'))
  · exact lt_of_le_of_lt (h1 b hb') (lt_of_lt_of_le h (h2 a ha'))

/-- `normalize`: every valid value of the result lies in [0, 1] and both ends are attained. -/
theorem C18_normalize (x : List (Option ℝ)) (a b : ℝ) (ha : some a ∈ x) (hb : some b ∈ x)
    (hab : a ≠ b) :
    (normalize x).map Option.isSome = x.map Option.isSome ∧
    (∀ v, some v ∈ normalize x → 0 ≤ v ∧ v ≤ 1) ∧ some 0 ∈ normalize x ∧ some 1 ∈ normalize x := by
  obtain ⟨lo, hi, hlo, hhi, hlt⟩ := extremes ha hb hab
  obtain ⟨mlo, hlo'⟩ := minO_eq_some.1 hlo
  obtain ⟨mhi, hhi'⟩ := maxO_eq_some.1 hhi
  have hd : 0 < hi - lo := by linarith
  rw [normalize_eq hlo hhi hlt]
  refine ⟨?_, ?_, ?_, ?_⟩
  · rw [List.map_map]; apply List.map_congr_left; intro v _; cases v <;> rfl
  · intro v hv
    obtain ⟨w, hw, e⟩ := List.mem_map.1 hv
    cases w with
    | none => cases e
    | some t =>
      have ht := mem_validVals.2 hw
      have h1 := hlo' t ht
      have h2 := hhi' t ht
      cases e
      exact ⟨div_nonneg (by linarith) hd.le, (div_le_one hd).2 (by linarith)⟩
  · exact List.mem_map.2 ⟨some lo, mem_validVals.1 mlo, by simp⟩
  · exact List.mem_map.2 ⟨some hi, mem_validVals.1 mhi, by simp [div_self hd.ne']⟩

/-- `normalize_by_mean`: the result has mean 1 (non-zero mean). -/
theorem C18_normalize_by_mean (x : List (Option ℝ)) (m : ℝ) (hm : nanmean x = some m) (h0 : m ≠ 0) :
    (normalizeByMean x).map Option.isSome = x.map Option.isSome ∧
    nanmean (normalizeByMean x) = some 1 := by
  have e : normalizeByMean x = x.map (Option.map (fun v => (1 / m) * v + 0)) := by
    unfold normalizeByMean
    rw [hm]
    apply map_eq_affine
    · rfl
    · intro v
      show (if m = 0 then none else some (v / m)) = _
      rw [if_neg h0]; congr 1; ring
  rw [e]
  refine ⟨?_, ?_⟩
  · rw [List.map_map]; apply List.map_congr_left; intro v _; cases v <;> rfl
  · unfold nanmean
    rw [validVals_map, meanO_affine hm]
    congr 1; field_simp; ring

/-- Adding a constant to the data does not change `standardize`, `normalize` or `center`. -/
theorem C18_offset_invariant (x : List (Option ℝ)) (a b : ℝ) (ha : some a ∈ x) (hb : some b ∈ x)
    (hab : a ≠ b) (c : ℝ) :
    standardize (x.map (Option.map (· + c))) = standardize x ∧
    center (x.map (Option.map (· + c))) = center x ∧
    normalize (x.map (Option.map (· + c))) = normalize x := by
  obtain ⟨m, s, hm, hs, hpos⟩ := spread ha hb hab
  obtain ⟨lo, hi, hlo, hhi, hlt⟩ := extremes ha hb hab
  have hv : validVals (x.map (Option.map (· + c))) = (validVals x).map (fun t => 1 * t + c) := by
    rw [validVals_map]; apply List.map_congr_left; intro t _; ring
  have hm' : meanO (validVals (x.map (Option.map (· + c)))) = some (m + c) := by
    rw [hv, meanO_affine hm, one_mul]
  have hs' : varO (validVals (x.map (Option.map (· + c)))) = some s := by
    rw [hv, varO_affine hs]; simp
  obtain ⟨mlo, hlo'⟩ := minO_eq_some.1 hlo
  obtain ⟨mhi, hhi'⟩ := maxO_eq_some.1 hhi
  have hlo2 : minO (validVals (x.map (Option.map (· + c)))) = some (lo + c) := by
    rw [minO_eq_some, hv]
    refine ⟨List.mem_map.2 ⟨lo, mlo, by ring⟩, ?_⟩
    intro t ht
    obtain ⟨u, hu, rfl⟩ := List.mem_map.1 ht
    have := hlo' u hu; linarith
  have hhi2 : maxO (validVals (x.map (Option.map (· + c)))) = some (hi + c) := by
    rw [maxO_eq_some, hv]
    refine ⟨List.mem_map.2 ⟨hi, mhi, by ring⟩, ?_⟩
    intro t ht
    obtain ⟨u, hu, rfl⟩ := List.mem_map.1 ht
    have := hhi' u hu; linarith
  refine ⟨?_, ?_, ?_⟩
  · rw [standardize_eq hm hs hpos, standardize_eq hm' hs' hpos, List.map_map]
    apply List.map_congr_left
    intro v _
    cases v with
    | none => rfl
    | some v =>
      have h0 : Real.sqrt s ≠ 0 := (Real.sqrt_pos.2 hpos).ne'
      simp only [Function.comp, Option.map_some]
      congr 1; field_simp; ring
  · unfold center nanmean
    rw [hm, hm', List.map_map]
    apply List.map_congr_left
    intro v _
    cases v with
    | none => rfl
    | some v =>
      show some (v + c - (m + c)) = some (v - m)
      congr 1; ring
  · rw [normalize_eq hlo hhi hlt, normalize_eq hlo2 hhi2 (by linarith), List.map_map]
    apply List.map_congr_left
    intro v _
    cases v with
    | none => rfl
    | some v =>
      simp only [Function.comp, Option.map_some]
      congr 1
      rw [show v + c - (lo + c) = v - lo by ring, show hi + c - (lo + c) = hi - lo by ring]

/-- A positive rescaling (change of units) does not change `standardize` either; a negative one
flips its sign. -/
theorem C18_standardize_scale (x : List (Option ℝ)) (a b : ℝ) (ha : some a ∈ x) (hb : some b ∈ x)
    (hab : a ≠ b) (c : ℝ) (hc : 0 < c) :
    standardize (x.map (Option.map (c * ·))) = standardize x ∧
    standardize (x.map (Option.map (-c * ·))) = (standardize x).map (Option.map (fun v => -v)) := by
  obtain ⟨m, s, hm, hs, hpos⟩ := spread ha hb hab
  have h0 : Real.sqrt s ≠ 0 := (Real.sqrt_pos.2 hpos).ne'
  have gen : ∀ d : ℝ, d ≠ 0 → standardize (x.map (Option.map (d * ·)))
      = x.map (Option.map (fun v => d / |d| * ((1 / Real.sqrt s) * v + -(m / Real.sqrt s)))) := by
    intro d hd
    have hv : validVals (x.map (Option.map (d * ·))) = (validVals x).map (fun t => d * t + 0) := by
      rw [validVals_map]; apply List.map_congr_left; intro t _; ring
    have hm' : meanO (validVals (x.map (Option.map (d * ·)))) = some (d * m) := by
      rw [hv, meanO_affine hm, add_zero]
    have hs' : varO (validVals (x.map (Option.map (d * ·)))) = some (d ^ 2 * s) := by
      rw [hv, varO_affine hs]
    rw [standardize_eq hm' hs' (by positivity), List.map_map]
    apply List.map_congr_left
    intro v _
    cases v with
    | none => rfl
    | some v =>
      simp only [Function.comp, Option.map_some]
      congr 1
      rw [Real.sqrt_mul (sq_nonneg d), Real.sqrt_sq_eq_abs]
      have : |d| ≠ 0 := abs_ne_zero.2 hd
      field_simp
  refine ⟨?_, ?_⟩
  · rw [gen c hc.ne', standardize_eq hm hs hpos, abs_of_pos hc, div_self hc.ne']
    simp
  · rw [gen (-c) (by linarith), standardize_eq hm hs hpos, abs_neg, abs_of_pos hc, List.map_map,
      neg_div, div_self hc.ne']
    apply List.map_congr_left
    intro v _
    cases v with
    | none => rfl
    | some v =>
      simp only [Function.comp, Option.map_some]
      congr 1; ring

/-- Missing values do not influence the other results: the valid results are those of the data with
the missing values removed. -/
theorem C18_missing_ignored (x : List (Option ℝ)) :
    let y := x.filter Option.isSome
    validVals (standardize x) = validVals (standardize y) ∧
    validVals (center x) = validVals (center y) ∧
    validVals (normalize x) = validVals (normalize y) ∧
    validVals (normalizeByMean x) = validVals (normalizeByMean y) := by
  intro y
  have hv : validVals y = validVals x := validVals_filter x
  have gen : ∀ f : Option ℝ → Option ℝ, f none = none →
      validVals (x.map f) = validVals (y.map f) := by
    intro f hf
    show validVals (x.map f) = validVals ((x.filter Option.isSome).map f)
    clear hv
    induction x with
    | nil => rfl
    | cons a l ih =>
      cases a with
      | none =>
        simp only [List.map_cons, hf]
        rw [List.filter_cons_of_neg (by simp)]
        rw [← ih]
        simp [validVals]
      | some v =>
        rw [List.filter_cons_of_pos (by simp)]
        simp only [List.map_cons]
        unfold validVals at ih ⊢
        cases f (some v) with
        | none => simpa using ih
        | some w => simpa using ih
  refine ⟨?_, ?_, ?_, ?_⟩
  · unfold standardize nanmean nanstd; rw [hv]; exact gen _ rfl
  · unfold center nanmean; rw [hv]; exact gen _ rfl
  · unfold normalize nanmin nanmax; rw [hv]; exact gen _ rfl
  · unfold normalizeByMean nanmean; rw [hv]; exact gen _ rfl

/-- `data_normalization` dispatches to the four schemes and rejects every other name. -/
theorem C18_dispatch (x : List (Option ℝ)) (t : String) :
    (t = "standardize" → dataNormalization x t = .ok (standardize x)) ∧
    (t = "center" → dataNormalization x t = .ok (center x)) ∧
    (t = "normalize" → dataNormalization x t = .ok (normalize x)) ∧
    (t = "normalize_by_mean" → dataNormalization x t = .ok (normalizeByMean x)) ∧
    (t ∉ ["standardize", "center", "normalize", "normalize_by_mean"] →
      dataNormalization x t = .error .valueError) := by
  refine ⟨?_, ?_, ?_, ?_, ?_⟩
  · rintro rfl; rfl
  · rintro rfl; rfl
  · rintro rfl; rfl
  · rintro rfl; rfl
  · intro h
    simp only [List.mem_cons, List.not_mem_nil, or_false, not_or] at h
    simp [dataNormalization, h]

/-- Non-vacuity: data with a missing value and two different values. -/
example : ∃ x : List (Option ℝ), none ∈ x ∧ some 1 ∈ x ∧ some 3 ∈ x ∧ (1 : ℝ) ≠ 3 ∧
    nanmean x = some 2 :=
  ⟨[some 1, none, some 3], by simp, by simp, by simp, by norm_num, by
    have : validVals [some 1, none, some 3] = [1, 3] := rfl
    unfold nanmean; rw [this, meanO, if_neg (by simp)]; norm_num⟩

end TS
