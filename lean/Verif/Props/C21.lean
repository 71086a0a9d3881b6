import Verif.Model.StatsUtils
import Verif.Lemmas.Fourier

/-! C21 — whole-pixel shifts. -/

namespace TS
open Finset

theorem rollIx_zero {n i : ℕ} (hi : i < n) : rollIx n 0 i = i := by
  unfold rollIx
  rw [sub_zero, Int.emod_eq_of_lt (by omega) (by omega)]; simp

theorem rollIx_comp {n : ℕ} (hn : 0 < n) (j k : ℤ) (i : ℕ) :
    rollIx n j (rollIx n k i) = rollIx n (j + k) i := by
  have : ((rollIx n j (rollIx n k i) : ℕ) : ℤ) = (rollIx n (j + k) i : ℕ) := by
    rw [rollIx_cast hn, rollIx_cast hn, rollIx_cast hn, Int.emod_sub_emod]
    congr 1; ring
  exact_mod_cast this

theorem rollIx_period {n : ℕ} (hn : 0 < n) (s q : ℤ) (i : ℕ) :
    rollIx n (s + n * q) i = rollIx n s i := by
  have : ((rollIx n (s + n * q) i : ℕ) : ℤ) = (rollIx n s i : ℕ) := by
    rw [rollIx_cast hn, rollIx_cast hn, show (i : ℤ) - (s + n * q) = (i - s) + n * (-q) by ring,
      Int.add_mul_emod_self_left]
  exact_mod_cast this

/-- The entry of a 3D array at an index vector. -/
def Arr3.at' {α : Type*} (x : Arr3 α) (v : Fin 3 → ℕ) : α := x.get (v 0) (v 1) (v 2)
/-- Length of an axis. -/
def Arr3.len' {α : Type*} (x : Arr3 α) (a : Fin 3) : ℕ := ![x.n, x.m, x.p] a

namespace Spec
/-- `y` is `x` with every element moved `k` places along axis `a`, cyclically: the element at position
`v` is found at the position whose coordinate along `a` is larger by `k` modulo the axis length. -/
def Moved {α : Type*} (x y : Arr3 α) (a : Fin 3) (k : ℤ) : Prop :=
  (y.n = x.n ∧ y.m = x.m ∧ y.p = x.p) ∧
  ∀ v : Fin 3 → ℕ, (∀ b, v b < x.len' b) → ∀ t : ℕ, t < x.len' a → (x.len' a : ℤ) ∣ t - (v a + k) →
    y.at' (Function.update v a t) = x.at' v

/-- The number of whole pixels a shift argument stands for: an int is itself, a float loses its
fractional part (towards zero). -/
def WholePixels : ShiftArg → ℤ → Prop
  | .int j, k => k = j
  | .float r, k => |(k : ℝ)| ≤ |r| ∧ |r| < |(k : ℝ)| + 1 ∧ 0 ≤ (k : ℝ) * r

/-- numpy's numbering of the three axes, from the front or from the back. -/
def axisOf (axis : ℤ) : Option (Fin 3) :=
  if axis = 0 ∨ axis = -3 then some 0 else if axis = 1 ∨ axis = -2 then some 1
  else if axis = 2 ∨ axis = -1 then some 2 else none
end Spec

/-- The roll along axis `a`. -/
private def rollA {α : Type*} (x : Arr3 α) (a : Fin 3) (k : ℤ) : Arr3 α :=
  match a with
  | 0 => x.roll0 k
  | 1 => x.roll1 k
  | 2 => x.roll2 k

private theorem pixelShift_eq {α : Type*} (x : Arr3 α) (s : ShiftArg) (axis : ℤ) (a : Fin 3)
    (h : Spec.axisOf axis = some a) : pixelShift x s axis = .ok (rollA x a s.toInt) := by
  unfold Spec.axisOf at h
  unfold pixelShift
  split_ifs at h with h0 h1 h2 <;> cases h
  · rw [if_pos h0]; rfl
  · rw [if_neg h0, if_pos h1]; rfl
  · rw [if_neg h0, if_neg h1, if_pos h2]; rfl

private theorem rollIx_dvd {n : ℕ} {s : ℤ} {t i : ℕ} (hi : i < n) (h : (n : ℤ) ∣ t - (i + s)) :
    rollIx n s t = i := by
  have hn : 0 < n := by omega
  have hc := rollIx_cast hn s t
  have : ((rollIx n s t : ℕ) : ℤ) = i := by
    rw [hc]
    have h2 : (n : ℤ) ∣ ((t : ℤ) - s) - i := by
      have e : ((t : ℤ) - s) - i = t - (i + s) := by ring
      rw [e]; exact h
    have h3 := (Int.emod_emod_of_dvd ((t : ℤ) - s) (dvd_refl (n : ℤ)))
    have h4 : ((t : ℤ) - s) % n = (i : ℤ) % n := Int.emod_eq_emod_iff_emod_sub_eq_zero.2
      (Int.emod_eq_zero_of_dvd h2)
    rw [h4, Int.emod_eq_of_lt (by omega) (by omega)]
  exact_mod_cast this

private theorem toInt_whole (s : ShiftArg) : Spec.WholePixels s s.toInt := by
  cases s with
  | int j => rfl
  | float r =>
    show |((pyInt r : ℤ) : ℝ)| ≤ |r| ∧ |r| < |((pyInt r : ℤ) : ℝ)| + 1 ∧ 0 ≤ ((pyInt r : ℤ) : ℝ) * r
    unfold pyInt
    split_ifs with h
    · have h1 : (0 : ℝ) ≤ (⌊r⌋ : ℤ) := by exact_mod_cast Int.floor_nonneg.2 h
      rw [abs_of_nonneg h1, abs_of_nonneg h]
      exact ⟨Int.floor_le r, Int.lt_floor_add_one r, mul_nonneg h1 h⟩
    · have h' : r ≤ 0 := le_of_lt (not_le.1 h)
      have h1 : ((⌈r⌉ : ℤ) : ℝ) ≤ 0 := by
        have : ⌈r⌉ ≤ 0 := Int.ceil_le.2 (by simpa using h')
        exact_mod_cast this
      rw [abs_of_nonpos h1, abs_of_nonpos h']
      have h2 := Int.le_ceil r
      have h3 := Int.ceil_lt_add_one r
      exact ⟨by linarith, by linarith, mul_nonneg_of_nonpos_of_nonpos h1 h'⟩

/-- Every element moves exactly `shift` places (a float shift loses its fractional part) along the
chosen axis; axes outside the array raise. -/
theorem C21_moves {α : Type*} (x : Arr3 α) (s : ShiftArg) (axis : ℤ) :
    (∀ a, Spec.axisOf axis = some a → ∃ y k, pixelShift x s axis = .ok y ∧ Spec.WholePixels s k ∧
      Spec.Moved x y a k) ∧
    (Spec.axisOf axis = none → pixelShift x s axis = .error .valueError) := by
  refine ⟨?_, ?_⟩
  · intro a ha
    refine ⟨_, _, pixelShift_eq x s axis a ha, toInt_whole s, ?_, ?_⟩
    · fin_cases a <;> exact ⟨rfl, rfl, rfl⟩
    · intro v hv t ht hd
      fin_cases a
      · have : rollIx x.n s.toInt t = v 0 := rollIx_dvd (hv 0) hd
        show x.get (rollIx x.n s.toInt _) _ _ = x.get _ _ _
        simp only [Function.update, Fin.isValue]
        simpa using congrArg (fun q => x.get q (v 1) (v 2)) this
      · have : rollIx x.m s.toInt t = v 1 := rollIx_dvd (hv 1) hd
        show x.get _ (rollIx x.m s.toInt _) _ = x.get _ _ _
        simp only [Function.update, Fin.isValue]
        simpa using congrArg (fun q => x.get (v 0) q (v 2)) this
      · have : rollIx x.p s.toInt t = v 2 := rollIx_dvd (hv 2) hd
        show x.get _ _ (rollIx x.p s.toInt _) = x.get _ _ _
        simp only [Function.update, Fin.isValue]
        simpa using congrArg (fun q => x.get (v 0) (v 1) q) this
  · intro h
    unfold Spec.axisOf at h
    unfold pixelShift
    split_ifs at h with h0 h1 h2
    rw [if_neg h0, if_neg h1, if_neg h2]

/-- Shifting by `j` then `k` is shifting by `j + k`; shifting by 0 or any multiple of the axis length
changes nothing; shifting back restores the array. -/
theorem C21_group {α : Type*} (x : Arr3 α) (axis : ℤ) (a : Fin 3) (ha : Spec.axisOf axis = some a)
    (j k q : ℤ) :
    (∃ y z w, pixelShift x (.int j) axis = .ok y ∧ pixelShift y (.int k) axis = .ok z ∧
      pixelShift x (.int (j + k)) axis = .ok w ∧ z.Same w) ∧
    (∃ y, pixelShift x (.int (x.len' a * q)) axis = .ok y ∧ y.Same x) ∧
    (∃ y z, pixelShift x (.int j) axis = .ok y ∧ pixelShift y (.int (-j)) axis = .ok z ∧ z.Same x) := by
  have id0 : ∀ q : ℤ, (rollA x a (x.len' a * q)).Same x := by
    intro q
    fin_cases a
    · refine ⟨rfl, rfl, rfl, fun i hi i1 _ i2 _ => ?_⟩
      replace hi : i < x.n := hi
      show x.get (rollIx x.n (x.n * q) i) _ _ = _
      have h := rollIx_period (Nat.lt_of_le_of_lt (Nat.zero_le _) hi) 0 q i
      rw [zero_add] at h
      rw [h, rollIx_zero hi]
    · refine ⟨rfl, rfl, rfl, fun i _ i1 hi i2 _ => ?_⟩
      replace hi : i1 < x.m := hi
      show x.get _ (rollIx x.m (x.m * q) i1) _ = _
      have h := rollIx_period (Nat.lt_of_le_of_lt (Nat.zero_le _) hi) 0 q i1
      rw [zero_add] at h
      rw [h, rollIx_zero hi]
    · refine ⟨rfl, rfl, rfl, fun i _ i1 _ i2 hi => ?_⟩
      replace hi : i2 < x.p := hi
      show x.get _ _ (rollIx x.p (x.p * q) i2) = _
      have h := rollIx_period (Nat.lt_of_le_of_lt (Nat.zero_le _) hi) 0 q i2
      rw [zero_add] at h
      rw [h, rollIx_zero hi]
  have comp : ∀ j k : ℤ, (rollA (rollA x a j) a k).Same (rollA x a (j + k)) := by
    intro j k
    fin_cases a
    · refine ⟨rfl, rfl, rfl, fun i hi i1 _ i2 _ => ?_⟩
      replace hi : i < x.n := hi
      show x.get (rollIx x.n j (rollIx x.n k i)) _ _ = x.get (rollIx x.n (j + k) i) _ _
      rw [rollIx_comp (Nat.lt_of_le_of_lt (Nat.zero_le _) hi)]
    · refine ⟨rfl, rfl, rfl, fun i _ i1 hi i2 _ => ?_⟩
      replace hi : i1 < x.m := hi
      show x.get _ (rollIx x.m j (rollIx x.m k i1)) _ = x.get _ (rollIx x.m (j + k) i1) _
      rw [rollIx_comp (Nat.lt_of_le_of_lt (Nat.zero_le _) hi)]
    · refine ⟨rfl, rfl, rfl, fun i _ i1 _ i2 hi => ?_⟩
      replace hi : i2 < x.p := hi
      show x.get _ _ (rollIx x.p j (rollIx x.p k i2)) = x.get _ _ (rollIx x.p (j + k) i2)
      rw [rollIx_comp (Nat.lt_of_le_of_lt (Nat.zero_le _) hi)]
  refine ⟨⟨_, _, _, pixelShift_eq _ _ _ a ha, pixelShift_eq _ _ _ a ha, pixelShift_eq _ _ _ a ha,
    comp j k⟩, ⟨_, pixelShift_eq _ _ _ a ha, id0 q⟩,
    ⟨_, _, pixelShift_eq _ _ _ a ha, pixelShift_eq _ _ _ a ha, ?_⟩⟩
  have h1 := comp j (-j)
  have h2 := id0 0
  rw [mul_zero] at h2
  rw [add_neg_cancel] at h1
  refine ⟨h1.1.trans h2.1, h1.2.1.trans h2.2.1, h1.2.2.1.trans h2.2.2.1, ?_⟩
  intro i hi i1 hi1 i2 hi2
  rw [show (rollA (rollA x a (ShiftArg.int j).toInt) a (ShiftArg.int (-j)).toInt).get i i1 i2
    = (rollA x a 0).get i i1 i2 from h1.2.2.2 i hi i1 hi1 i2 hi2]
  exact h2.2.2.2 i (lt_of_lt_of_eq hi h1.1) i1 (lt_of_lt_of_eq hi1 h1.2.1) i2
    (lt_of_lt_of_eq hi2 h1.2.2.1)

/-- No value is created or lost: any sum over the array is unchanged. -/
theorem C21_conserves (x y : Arr3 ℝ) (s : ShiftArg) (axis : ℤ) (g : ℝ → ℝ)
    (h : pixelShift x s axis = .ok y) :
    ∑ i ∈ range y.n, ∑ j ∈ range y.m, ∑ k ∈ range y.p, g (y.get i j k)
      = ∑ i ∈ range x.n, ∑ j ∈ range x.m, ∑ k ∈ range x.p, g (x.get i j k) := by
  unfold pixelShift at h
  split_ifs at h
  · cases h
    rcases Nat.eq_zero_or_pos x.n with h0 | h0
    · simp [Arr3.roll0, h0]
    · exact sum_rollIx h0 s.toInt (fun i => ∑ j ∈ range x.m, ∑ k ∈ range x.p, g (x.get i j k))
  · cases h
    apply sum_congr rfl; intro i _
    rcases Nat.eq_zero_or_pos x.m with h0 | h0
    · simp [Arr3.roll1, h0]
    · exact sum_rollIx h0 s.toInt (fun j => ∑ k ∈ range x.p, g (x.get i j k))
  · cases h
    apply sum_congr rfl; intro i _
    apply sum_congr rfl; intro j _
    rcases Nat.eq_zero_or_pos x.p with h0 | h0
    · simp [Arr3.roll2, h0]
    · exact sum_rollIx h0 s.toInt (fun k => g (x.get i j k))

example : Spec.axisOf (-1) = some 2 ∧ Spec.axisOf 3 = none := by decide

end TS
