import Verif.Np.Core

/-! Resolution of step-one slices with endpoints inside the axis. -/

namespace TS

theorem adjustIx_inside {n : ℕ} {v : ℤ} (h0 : 0 ≤ v) (h1 : v ≤ n) : adjustIx n false v = v := by
  unfold adjustIx
  rw [if_neg (by omega)]
  split_ifs <;> simp_all; omega

theorem resolve_range {n : ℕ} {a b : ℤ} (h0 : 0 ≤ a) (h1 : a ≤ b) (h2 : b ≤ n) :
    (⟨some a, some b, 1⟩ : PySlice).resolve n = ⟨a, 1, (b - a).toNat⟩ := by
  simp only [PySlice.resolve]
  have hd : decide ((1 : ℤ) < 0) = false := by decide
  rw [hd, adjustIx_inside h0 (by omega), adjustIx_inside (by omega) h2]
  simp only [Bool.false_eq_true, if_false, Int.ediv_one, SliceIx.mk.injEq, true_and]
  split_ifs <;> omega

theorem resolve_from {n : ℕ} {a : ℤ} (h0 : 0 ≤ a) (h1 : a ≤ n) :
    (⟨some a, none, 1⟩ : PySlice).resolve n = ⟨a, 1, ((n : ℤ) - a).toNat⟩ := by
  simp only [PySlice.resolve]
  have hd : decide ((1 : ℤ) < 0) = false := by decide
  rw [hd, adjustIx_inside h0 (by omega)]
  simp only [Bool.false_eq_true, if_false, Int.ediv_one, SliceIx.mk.injEq, true_and]
  split_ifs <;> omega

theorem resolve_to {n : ℕ} {b : ℤ} (h1 : 0 ≤ b) (h2 : b ≤ n) :
    (⟨none, some b, 1⟩ : PySlice).resolve n = ⟨0, 1, b.toNat⟩ := by
  simp only [PySlice.resolve]
  have hd : decide ((1 : ℤ) < 0) = false := by decide
  rw [hd, adjustIx_inside h1 (by omega)]
  simp only [Bool.false_eq_true, if_false, Int.ediv_one, SliceIx.mk.injEq, true_and]
  split_ifs <;> omega

end TS
