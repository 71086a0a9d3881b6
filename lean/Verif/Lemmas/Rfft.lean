import Verif.Model.RfftToFft

/-! Index arithmetic behind C01. -/

namespace TS
open Finset

/-- Mirrored column block: start, step and length of the parity-dependent slice. -/
theorem mirrorCols (m : ℕ) (hm : 0 < m) :
    (if m % 2 = 0 then (⟨some (-2), some 0, -1⟩ : PySlice) else ⟨some (-1), some 0, -1⟩).resolve
      (m / 2 + 1) = ⟨(m : ℤ) - m / 2 - 1, -1, m - (m / 2 + 1)⟩ := by
  rcases Nat.mod_two_eq_zero_or_one m with h | h
  · rw [if_pos h]
    unfold PySlice.resolve adjustIx
    simp only [SliceIx.mk.injEq]
    simp
    constructor
    · split <;> omega
    · (repeat' split) <;> omega
  · rw [if_neg (by omega)]
    unfold PySlice.resolve adjustIx
    simp only [SliceIx.mk.injEq]
    simp
    constructor
    · split <;> omega
    · (repeat' split) <;> omega

theorem resolve_tail (n : ℕ) (hn : 0 < n) :
    (⟨some 1, none, 1⟩ : PySlice).resolve n = ⟨1, 1, n - 1⟩ := by
  unfold PySlice.resolve adjustIx
  simp only [SliceIx.mk.injEq]
  simp
  constructor
  · intro h; omega
  · (repeat' split) <;> omega

theorem resolve_rev (n : ℕ) (hn : 0 < n) :
    (⟨none, some 0, -1⟩ : PySlice).resolve n = ⟨(n : ℤ) - 1, -1, n - 1⟩ := by
  unfold PySlice.resolve adjustIx
  simp only [SliceIx.mk.injEq]
  simp
  (repeat' split) <;> omega

/-- Where row `i` of the mirrored block is read from: `-i mod n`. -/
def negIx (n i : ℕ) : ℕ := if i = 0 then 0 else n - i

theorem find_tail (n i : ℕ) (_hn : 0 < n) (hi : i < n) :
    (⟨1, 1, n - 1⟩ : SliceIx).find i = if 1 ≤ i then some (i - 1) else none := by
  rw [SliceIx.find_step_one rfl (by simp)]
  by_cases h : 1 ≤ i
  · rw [if_pos h, if_pos]
    · rfl
    · constructor <;> simp <;> omega
  · rw [if_neg h, if_neg]
    rintro ⟨h1, _⟩; simp at h1; omega

theorem expand2_spec (n m : ℕ) (hn : 0 < n) (hm : 0 < m) (f : ℕ → ℕ → ℝ) :
    ∃ b, expand2 m ⟨n, m / 2 + 1, f⟩ = .ok b ∧ b.n = n ∧ b.m = m ∧
      ∀ i < n, ∀ j < m, b.get i j =
        if j < m / 2 + 1 then f i j else f (negIx n i) (m - j) := by
  have hc := mirrorCols m hm
  have hstar : ∀ g : Arr2 ℝ, (if m % 2 = 0 then g.slice1 ⟨some (-2), some 0, -1⟩
      else g.slice1 ⟨some (-1), some 0, -1⟩) = g.slice1 (if m % 2 = 0 then
        (⟨some (-2), some 0, -1⟩ : PySlice) else ⟨some (-1), some 0, -1⟩) := by
    intro g; split <;> rfl
  unfold expand2
  rw [hstar]
  simp only [Arr2.slice1, hc, Arr2.slice0, Arr2.setSlice0, resolve_tail n hn, resolve_rev n hn,
    Arr2.concat1, bind, Except.bind, and_self, if_true]
  refine ⟨_, rfl, rfl, by simp only; omega, ?_⟩
  intro i hi j hj
  simp only
  split
  · rfl
  · rename_i hj2
    rw [find_tail n i hn hi]
    by_cases h1 : 1 ≤ i
    · simp only [if_pos h1, SliceIx.ix, negIx]
      rw [if_neg (by omega : ¬ i = 0)]
      congr 1
      · omega
      · omega
    · simp only [if_neg h1, SliceIx.ix, negIx]
      rw [if_pos (by omega : i = 0)]
      congr 1
      · omega
      · omega

theorem expand3_spec (n m p : ℕ) (hn : 0 < n) (hm : 0 < m) (hp : 0 < p) (f : ℕ → ℕ → ℕ → ℝ) :
    ∃ b, expand3 p ⟨n, m, p / 2 + 1, f⟩ = .ok b ∧ b.n = n ∧ b.m = m ∧ b.p = p ∧
      ∀ i < n, ∀ j < m, ∀ k < p, b.get i j k =
        if k < p / 2 + 1 then f i j k else f (negIx n i) (negIx m j) (p - k) := by
  have hc := mirrorCols p hp
  have hstar : ∀ g : Arr3 ℝ, (if p % 2 = 0 then g.slice2 ⟨some (-2), some 0, -1⟩
      else g.slice2 ⟨some (-1), some 0, -1⟩) = g.slice2 (if p % 2 = 0 then
        (⟨some (-2), some 0, -1⟩ : PySlice) else ⟨some (-1), some 0, -1⟩) := by
    intro g; split <;> rfl
  unfold expand3
  rw [hstar]
  simp only [Arr3.slice2, hc, Arr3.slice0, Arr3.slice1, Arr3.setSlice0, Arr3.setSlice1,
    resolve_tail n hn, resolve_rev n hn, resolve_tail m hm, resolve_rev m hm,
    Arr3.concat2, bind, Except.bind, and_self, if_true]
  refine ⟨_, rfl, rfl, rfl, by simp only; omega, ?_⟩
  intro i hi j hj k hk
  simp only
  split
  · rfl
  · rename_i hk2
    rw [find_tail n i hn hi, find_tail m j hm hj]
    by_cases h1 : 1 ≤ i <;> by_cases h2 : 1 ≤ j <;>
      simp only [h1, h2, if_true, if_false, SliceIx.ix, negIx] <;>
      congr 1 <;> (try split) <;> omega

theorem dvd_negIx (n i : ℕ) (hi : i < n) : (n : ℤ) ∣ ((negIx n i : ℕ) : ℤ) - (-(i : ℤ)) := by
  unfold negIx
  split
  · rename_i h; subst h; simp
  · refine ⟨1, ?_⟩; omega

end TS
