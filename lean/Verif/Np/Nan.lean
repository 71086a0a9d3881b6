import Verif.Np.Core
import Mathlib.Analysis.Real.Sqrt
import Mathlib.Algebra.Order.BigOperators.Group.List

/-! NaN-aware numpy reductions over a flattened array (`none` = NaN), external contracts. -/

namespace TS

/-- The entries that are not NaN, in order. -/
def validVals (x : List (Option ℝ)) : List ℝ := x.filterMap id

/-- `np.nansum`. -/
noncomputable def nansum (x : List (Option ℝ)) : ℝ := (validVals x).sum

/-- Arithmetic mean of plain numbers (`np.mean`), NaN for an empty array. -/
noncomputable def meanO (v : List ℝ) : Option ℝ := if v = [] then none else some (v.sum / v.length)

/-- `np.nanmean`. -/
noncomputable def nanmean (x : List (Option ℝ)) : Option ℝ := meanO (validVals x)

/-- Population variance of plain numbers (`np.var`). -/
noncomputable def varO (v : List ℝ) : Option ℝ := do
  let m ← meanO v
  meanO (v.map (fun t => (t - m) ^ 2))

/-- `np.nanstd` (`ddof=0`). -/
noncomputable def nanstd (x : List (Option ℝ)) : Option ℝ := (varO (validVals x)).map Real.sqrt

/-- Smallest of a list of numbers. -/
noncomputable def minO : List ℝ → Option ℝ
  | [] => none
  | a :: l => some (l.foldl min a)

/-- Largest of a list of numbers. -/
noncomputable def maxO : List ℝ → Option ℝ
  | [] => none
  | a :: l => some (l.foldl max a)

/-- `np.nanmin` (NaN when nothing is valid). -/
noncomputable def nanmin (x : List (Option ℝ)) : Option ℝ := minO (validVals x)
/-- `np.nanmax` (NaN when nothing is valid). -/
noncomputable def nanmax (x : List (Option ℝ)) : Option ℝ := maxO (validVals x)

/-- `a - b` with NaN. -/
noncomputable def subO (a b : Option ℝ) : Option ℝ := do return (← a) - (← b)
/-- `a + b` with NaN. -/
noncomputable def addO (a b : Option ℝ) : Option ℝ := do return (← a) + (← b)
/-- `a * b` with NaN. -/
noncomputable def mulO (a b : Option ℝ) : Option ℝ := do return (← a) * (← b)
/-- `a / b` with NaN; a zero divisor gives a non-finite value (`none`). -/
noncomputable def divO (a b : Option ℝ) : Option ℝ := do
  let x ← a
  let y ← b
  if y = 0 then none else some (x / y)

/-! ### Facts -/

theorem divO_some {x y : ℝ} (h : y ≠ 0) : divO (some x) (some y) = some (x / y) := by
  simp [divO, h]

theorem validVals_map (f : ℝ → ℝ) (x : List (Option ℝ)) :
    validVals (x.map (Option.map f)) = (validVals x).map f := by
  induction x with
  | nil => rfl
  | cons a l ih =>
    cases a with
    | none => simpa [validVals] using ih
    | some v => simpa [validVals] using ih

theorem mem_validVals {x : List (Option ℝ)} {v : ℝ} : v ∈ validVals x ↔ some v ∈ x := by
  simp [validVals]

theorem validVals_filter (x : List (Option ℝ)) :
    validVals (x.filter Option.isSome) = validVals x := by
  induction x with
  | nil => rfl
  | cons a l ih =>
    cases a with
    | none => simpa [validVals] using ih
    | some v => simpa [validVals] using ih

theorem validVals_some (l : List ℝ) : validVals (l.map some) = l := by
  induction l with
  | nil => rfl
  | cons a l ih => simp [validVals]

theorem foldl_min_spec (l : List ℝ) (a : ℝ) :
    (l.foldl min a = a ∨ l.foldl min a ∈ l) ∧ l.foldl min a ≤ a ∧ ∀ v ∈ l, l.foldl min a ≤ v := by
  induction l generalizing a with
  | nil => simp
  | cons b l ih =>
    obtain ⟨h1, h2, h3⟩ := ih (min a b)
    simp only [List.foldl_cons]
    refine ⟨?_, h2.trans (min_le_left _ _), ?_⟩
    · rcases h1 with h | h
      · rcases min_choice a b with hm | hm
        · left; rw [h, hm]
        · right; rw [h, hm]; simp
      · right; exact List.mem_cons_of_mem _ h
    · intro v hv
      rcases List.mem_cons.1 hv with rfl | hv
      · exact h2.trans (min_le_right _ _)
      · exact h3 v hv

theorem foldl_max_spec (l : List ℝ) (a : ℝ) :
    (l.foldl max a = a ∨ l.foldl max a ∈ l) ∧ a ≤ l.foldl max a ∧ ∀ v ∈ l, v ≤ l.foldl max a := by
  induction l generalizing a with
  | nil => simp
  | cons b l ih =>
    obtain ⟨h1, h2, h3⟩ := ih (max a b)
    simp only [List.foldl_cons]
    refine ⟨?_, (le_max_left _ _).trans h2, ?_⟩
    · rcases h1 with h | h
      · rcases max_choice a b with hm | hm
        · left; rw [h, hm]
        · right; rw [h, hm]; simp
      · right; exact List.mem_cons_of_mem _ h
    · intro v hv
      rcases List.mem_cons.1 hv with rfl | hv
      · exact (le_max_right _ _).trans h2
      · exact h3 v hv

/-- `minO` is the least element. -/
theorem minO_eq_some {v : List ℝ} {m : ℝ} : minO v = some m ↔ m ∈ v ∧ ∀ t ∈ v, m ≤ t := by
  cases v with
  | nil => simp [minO]
  | cons a l =>
    obtain ⟨h1, h2, h3⟩ := foldl_min_spec l a
    simp only [minO, Option.some.injEq]
    constructor
    · rintro rfl
      refine ⟨?_, ?_⟩
      · rcases h1 with h | h
        · rw [h]; simp
        · exact List.mem_cons_of_mem _ h
      · intro t ht
        rcases List.mem_cons.1 ht with rfl | ht
        · exact h2
        · exact h3 t ht
    · rintro ⟨hm, hle⟩
      apply le_antisymm
      · rcases List.mem_cons.1 hm with rfl | hm
        · exact h2
        · exact h3 m hm
      · rcases h1 with h | h
        · rw [h]; exact hle a (by simp)
        · exact hle _ (List.mem_cons_of_mem _ h)

/-- `maxO` is the greatest element. -/
theorem maxO_eq_some {v : List ℝ} {m : ℝ} : maxO v = some m ↔ m ∈ v ∧ ∀ t ∈ v, t ≤ m := by
  cases v with
  | nil => simp [maxO]
  | cons a l =>
    obtain ⟨h1, h2, h3⟩ := foldl_max_spec l a
    simp only [maxO, Option.some.injEq]
    constructor
    · rintro rfl
      refine ⟨?_, ?_⟩
      · rcases h1 with h | h
        · rw [h]; simp
        · exact List.mem_cons_of_mem _ h
      · intro t ht
        rcases List.mem_cons.1 ht with rfl | ht
        · exact h2
        · exact h3 t ht
    · rintro ⟨hm, hle⟩
      apply le_antisymm
      · rcases h1 with h | h
        · rw [h]; exact hle a (by simp)
        · exact hle _ (List.mem_cons_of_mem _ h)
      · rcases List.mem_cons.1 hm with rfl | hm
        · exact h2
        · exact h3 m hm

theorem exists_minO {v : List ℝ} (h : v ≠ []) : ∃ m, minO v = some m := by
  cases v with
  | nil => exact absurd rfl h
  | cons a l => exact ⟨_, rfl⟩

theorem exists_maxO {v : List ℝ} (h : v ≠ []) : ∃ m, maxO v = some m := by
  cases v with
  | nil => exact absurd rfl h
  | cons a l => exact ⟨_, rfl⟩

theorem list_sum_affine (v : List ℝ) (a b : ℝ) :
    (v.map (fun t => a * t + b)).sum = a * v.sum + b * v.length := by
  induction v with
  | nil => simp
  | cons c l ih =>
    simp only [List.map_cons, List.sum_cons, List.length_cons, Nat.cast_add, Nat.cast_one]
    rw [ih]; ring

/-- The mean of affinely transformed data. -/
theorem meanO_affine {v : List ℝ} {m : ℝ} (h : meanO v = some m) (a b : ℝ) :
    meanO (v.map (fun t => a * t + b)) = some (a * m + b) := by
  unfold meanO at h ⊢
  by_cases hv : v = []
  · rw [if_pos hv] at h; cases h
  · rw [if_neg hv] at h
    rw [if_neg (by simpa using hv), list_sum_affine]
    have hlen : (v.length : ℝ) ≠ 0 := by
      have : v.length ≠ 0 := fun h0 => hv (List.length_eq_zero_iff.1 h0)
      exact_mod_cast this
    rw [← Option.some.inj h]
    congr 1
    rw [List.length_map]
    field_simp

/-- The variance of affinely transformed data. -/
theorem varO_affine {v : List ℝ} {s : ℝ} (h : varO v = some s) (a b : ℝ) :
    varO (v.map (fun t => a * t + b)) = some (a ^ 2 * s) := by
  unfold varO at h ⊢
  cases hm : meanO v with
  | none => rw [hm] at h; cases h
  | some m =>
    rw [hm] at h
    have h' : meanO (v.map (fun t => (t - m) ^ 2)) = some s := h
    rw [meanO_affine hm a b]
    show meanO ((v.map (fun t => a * t + b)).map (fun t => (t - (a * m + b)) ^ 2)) = _
    have := meanO_affine h' (a ^ 2) 0
    rw [List.map_map] at this ⊢
    rw [add_zero] at this
    rw [← this]
    congr 1
    apply List.map_congr_left
    intro t _
    simp only [Function.comp]
    ring

theorem exists_meanO {v : List ℝ} (h : v ≠ []) : ∃ m, meanO v = some m := by
  simp [meanO, h]

theorem exists_varO {v : List ℝ} (h : v ≠ []) : ∃ s, varO v = some s := by
  obtain ⟨m, hm⟩ := exists_meanO h
  unfold varO
  rw [hm]
  exact exists_meanO (by simpa using h)

theorem list_sum_sq_nonneg (v : List ℝ) (m : ℝ) : 0 ≤ (v.map (fun t => (t - m) ^ 2)).sum := by
  apply List.sum_nonneg
  intro x hx
  obtain ⟨t, _, rfl⟩ := List.mem_map.1 hx
  positivity

theorem varO_nonneg {v : List ℝ} {s : ℝ} (h : varO v = some s) : 0 ≤ s := by
  unfold varO at h
  cases hm : meanO v with
  | none => rw [hm] at h; cases h
  | some m =>
    rw [hm] at h
    have h' : meanO (v.map (fun t => (t - m) ^ 2)) = some s := h
    unfold meanO at h'
    split at h'
    · cases h'
    · rw [← Option.some.inj h']
      exact div_nonneg (list_sum_sq_nonneg v m) (by positivity)

/-- Two different values make the variance positive. -/
theorem varO_pos {v : List ℝ} {s : ℝ} (h : varO v = some s) {a b : ℝ} (ha : a ∈ v) (hb : b ∈ v)
    (hab : a ≠ b) : 0 < s := by
  unfold varO at h
  cases hm : meanO v with
  | none => rw [hm] at h; cases h
  | some m =>
    rw [hm] at h
    have h' : meanO (v.map (fun t => (t - m) ^ 2)) = some s := h
    unfold meanO at h'
    split at h'
    · cases h'
    · rename_i hne
      rw [← Option.some.inj h']
      have hlen : 0 < ((v.map (fun t => (t - m) ^ 2)).length : ℝ) := by
        have : 0 < (v.map (fun t => (t - m) ^ 2)).length := List.length_pos_iff.2 hne
        exact_mod_cast this
      apply div_pos _ hlen
      have key : ∀ c ∈ v, (c - m) ^ 2 ≤ (v.map (fun t => (t - m) ^ 2)).sum := by
        intro c hc
        apply List.single_le_sum _ _ (List.mem_map.2 ⟨c, hc, rfl⟩)
        intro x hx
        obtain ⟨t, _, rfl⟩ := List.mem_map.1 hx
        positivity
      rcases eq_or_ne a m with rfl | hne'
      · have := key b hb
        have h2 : 0 < (b - a) ^ 2 := by
          have : b - a ≠ 0 := sub_ne_zero.2 (Ne.symm hab)
          positivity
        linarith
      · have := key a ha
        have h2 : 0 < (a - m) ^ 2 := by
          have : a - m ≠ 0 := sub_ne_zero.2 hne'
          positivity
        linarith

end TS
