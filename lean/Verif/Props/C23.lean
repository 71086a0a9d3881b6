import Verif.Model.StatsUtils

/-! C23 — the padding callbacks. -/

namespace TS

private theorem res_head (n p : ℕ) (hp : p ≤ n) :
    (⟨none, some (p : ℤ), 1⟩ : PySlice).resolve n = ⟨0, 1, p⟩ := by
  have e : adjustIx n false p = p := by
    unfold adjustIx
    rw [if_neg (by omega)]
    split
    · simp; omega
    · rfl
  simp only [PySlice.resolve, show decide ((1 : ℤ) < 0) = false from rfl, e]
  rcases Nat.eq_zero_or_pos p with h | h
  · subst h; simp
  · simp; omega

private theorem res_tail (n p : ℕ) (h0 : 0 < p) (hp : p ≤ n) :
    (⟨some (-(p : ℤ)), none, 1⟩ : PySlice).resolve n = ⟨(n - p : ℕ), 1, p⟩ := by
  simp only [PySlice.resolve, adjustIx]
  have h1 : (-(p : ℤ)) < 0 := by omega
  have h2 : ¬ (-(p : ℤ) + n < 0) := by omega
  rw [if_pos h1, if_neg h2]
  simp
  omega

private theorem res_tail0 (n : ℕ) : (⟨some (-((0 : ℕ) : ℤ)), none, 1⟩ : PySlice).resolve n = ⟨0, 1, n⟩ := by
  have e : adjustIx n false (-((0 : ℕ) : ℤ)) = 0 := by
    unfold adjustIx
    rw [if_neg (by omega)]
    split
    · simp; omega
    · simp
  simp only [PySlice.resolve, show decide ((1 : ℤ) < 0) = false from rfl, e]
  rcases Nat.eq_zero_or_pos n with h | h
  · subst h; simp
  · simp; omega

/-- With a non-empty padding at the end, the callback fills the first `p0` and the last `p1` entries
and leaves the others alone. Missing: an empty padding at the end (`C23_zero_end_wipes`). -/
theorem C23_margins_partial {α : Type*} (v : α) (x : Arr1 α) (p0 p1 : ℕ) (h1 : 0 < p1)
    (h : p0 + p1 ≤ x.n) :
    (padWith v x p0 p1).n = x.n ∧
    ∀ i < x.n, (padWith v x p0 p1).get i = if i < p0 ∨ x.n - p1 ≤ i then v else x.get i := by
  refine ⟨rfl, ?_⟩
  intro i hi
  unfold padWith Arr1.fill
  simp only
  rw [res_head _ _ (by omega), res_tail _ _ h1 (by omega), SliceIx.find_step_one rfl (by simp),
    SliceIx.find_step_one rfl (by simp)]
  by_cases a : i < p0
  · by_cases b : x.n - p1 ≤ i
    · simp [a]
    · simp [a]
  · by_cases b : x.n - p1 ≤ i
    · have : ((x.n - p1 : ℕ) : ℤ) ≤ i ∧ (i : ℤ) < ((x.n - p1 : ℕ) : ℤ) + p1 := by omega
      simp only [this, and_self, if_true, Option.isSome_some, b, or_true]
    · have h3 : ¬ (((x.n - p1 : ℕ) : ℤ) ≤ i ∧ (i : ℤ) < ((x.n - p1 : ℕ) : ℤ) + p1) := by omega
      have h4 : ¬ ((0 : ℤ) ≤ i ∧ (i : ℤ) < 0 + p0) := by omega
      simp only [h3, h4, if_false, Option.isSome_none, a, b, or_self, Bool.false_eq_true]

/-- Without padding at the end (`pad_width = (p0, 0)`) the slice `[-0:]` is the whole vector: all the
data are overwritten. -/
theorem C23_zero_end_wipes {α : Type*} (v : α) (x : Arr1 α) (p0 : ℕ) :
    ∀ i < x.n, (padWith v x p0 0).get i = v := by
  intro i hi
  unfold padWith Arr1.fill
  simp only
  rw [res_tail0, SliceIx.find_step_one rfl (by simp)]
  simp [hi]

/-- `np.pad(image, p, padwith…)` for `p ≥ 1` on all sides: the image in the middle, the fill value in
the whole margin, whatever the uninitialised margin held. -/
theorem C23_pad_image {α : Type*} (junk : ℕ → ℕ → α) (v : α) (a : Arr2 α) (p : ℕ) (hp : 0 < p) :
    let r := npPad2 junk (padWith v) a p
    r.n = a.n + 2 * p ∧ r.m = a.m + 2 * p ∧
    (∀ i < a.n, ∀ j < a.m, r.get (i + p) (j + p) = a.get i j) ∧
    (∀ i < r.n, ∀ j < r.m, (i < p ∨ a.n + p ≤ i ∨ j < p ∨ a.m + p ≤ j) → r.get i j = v) := by
  intro r
  have key : ∀ i < a.n + 2 * p, ∀ j < a.m + 2 * p, r.get i j =
      if (j < p ∨ a.m + p ≤ j) then v else if (i < p ∨ a.n + p ≤ i) then v
      else a.get (i - p) (j - p) := by
    intro i hi j hj
    show (padWith v _ p p).get j = _
    rw [(C23_margins_partial v _ p p hp (by show p + p ≤ a.m + 2 * p; omega)).2 j hj]
    have e1 : (j < p ∨ a.m + 2 * p - p ≤ j) ↔ (j < p ∨ a.m + p ≤ j) := by omega
    simp only [e1]
    split
    · rfl
    · rename_i hjn
      show (padWith v _ p p).get i = _
      rw [(C23_margins_partial v _ p p hp (by show p + p ≤ a.n + 2 * p; omega)).2 i hi]
      have e2 : (i < p ∨ a.n + 2 * p - p ≤ i) ↔ (i < p ∨ a.n + p ≤ i) := by omega
      simp only [e2]
      split
      · rfl
      · rename_i hin
        rw [if_pos (by omega)]
  refine ⟨rfl, rfl, ?_, ?_⟩
  · intro i hi j hj
    rw [key _ (by omega) _ (by omega), if_neg (by omega), if_neg (by omega)]
    congr 1 <;> omega
  · intro i hi j hj h
    rw [key i hi j hj]
    split
    · rfl
    · rw [if_pos (by omega)]

example : 0 < 2 ∧ 1 + 2 ≤ (⟨5, fun i => i⟩ : Arr1 ℕ).n := by decide

end TS
