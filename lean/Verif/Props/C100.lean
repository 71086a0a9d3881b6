import Verif.Model.Smoothing
import Mathlib.Tactic.Linarith
import Mathlib.Tactic.Positivity
import Mathlib.Tactic.FieldSimp
import Mathlib.Tactic.IntervalCases
import Mathlib.Tactic.GCongr
import Mathlib.Algebra.BigOperators.Ring.Finset
import Mathlib.Algebra.Order.BigOperators.Ring.Finset

/-! C100: the smoothing kernel, the signal mask made with it, the convolution wrapper and the annulus profile. -/

namespace TS
open Finset

namespace Spec

/-- The half-size an axis of the kernel has: its own size rounded down, or that of the first axis when it has none. -/
def HalfSize (size : ℝ) (o : Option ℝ) (a : ℕ) : Prop :=
  match o with
  | none => (a : ℝ) ≤ size ∧ size < a + 1
  | some v => (a : ℝ) ≤ v ∧ v < a + 1

/-- Weights for averaging in a box of half-sizes `a, b, c`: positive, with sum one, and a Gaussian profile about the centre with variances
`a / 2, b / 2, c / 2`. -/
structure Weights (K : Arr3 (Option ℝ)) (a b c : ℕ) : Prop where
  shape : K.n = 2 * a + 1 ∧ K.m = 2 * b + 1 ∧ K.p = 2 * c + 1
  total : ∑ i ∈ range K.n, ∑ j ∈ range K.m, ∑ k ∈ range K.p, (K.get i j k).getD 0 = 1
  profile : ∃ top : ℝ, 0 < top ∧ ∀ i < K.n, ∀ j < K.m, ∀ k < K.p, K.get i j k =
    some (top * Real.exp (-(((i : ℝ) - a) ^ 2 / a + ((j : ℝ) - b) ^ 2 / b + ((k : ℝ) - c) ^ 2 / c)))

/-- The box of half-size `a` about a voxel meets a voxel of value `v`; outside the cube every value is zero. -/
def Meets (c : Arr3 (Option ℝ)) (a i j k : ℕ) (v : Option ℝ) : Prop :=
  (∃ x < c.n, ∃ y < c.m, ∃ z < c.p, |(i : ℤ) - x| ≤ a ∧ |(j : ℤ) - y| ≤ a ∧ |(k : ℤ) - z| ≤ a ∧ c.get x y z = v) ∨
    (v = some 0 ∧ ¬(a ≤ i ∧ i + a < c.n ∧ a ≤ j ∧ j + a < c.m ∧ a ≤ k ∧ k + a < c.p))

/-- `d` is the first decimal digit of `M`. -/
def LeadingDigit (M d : ℕ) : Prop := ∃ k, d * 10 ^ k ≤ M ∧ M < (d + 1) * 10 ^ k

/-- A ring about `(x0, y0)`: the difference of two Gaussians of that centre. -/
noncomputable def ring (x y A x0 y0 s ratio : ℝ) : ℝ :=
  A * (Real.exp (-((x - x0) ^ 2 + (y - y0) ^ 2) / (2 * (ratio * s) ^ 2)) - Real.exp (-((x - x0) ^ 2 + (y - y0) ^ 2) / (2 * s ^ 2)))

end Spec

/-! ### the kernel -/

private theorem pyInt_half {v : ℝ} {a : ℕ} (h1 : (a : ℝ) ≤ v) (h2 : v < a + 1) : pyInt v = a := by
  have h0 : 0 ≤ v := le_trans (Nat.cast_nonneg a) h1
  simp only [pyInt, if_pos h0]
  rw [Int.floor_eq_iff]
  exact ⟨by exact_mod_cast h1, by exact_mod_cast h2⟩

private theorem kernHalf_eq {size : ℝ} {o : Option ℝ} {a : ℕ} (ha : 1 ≤ a) (h : Spec.HalfSize size o a) : kernHalf size o = a := by
  have ha' : (1 : ℝ) ≤ a := by exact_mod_cast ha
  cases o with
  | none => exact pyInt_half h.1 h.2
  | some v =>
    have hv : v ≠ 0 := by
      rintro rfl
      have := h.1
      linarith
    simp only [kernHalf, if_neg hv]
    exact pyInt_half h.1 h.2

private theorem gridLen_nat (a : ℕ) : gridLen (a : ℤ) = 2 * a + 1 := by
  unfold gridLen
  omega

/-- the profile of one axis -/
private noncomputable def prof (a i : ℕ) : ℝ := Real.exp (-(((i : ℝ) - a) ^ 2 / a))

private noncomputable def profSum (a : ℕ) : ℝ := ∑ i ∈ range (2 * a + 1), prof a i

private theorem prof_pos (a i : ℕ) : 0 < prof a i := Real.exp_pos _

private theorem profSum_pos (a : ℕ) : 0 < profSum a := sum_pos (fun i _ => prof_pos a i) ⟨0, by simp⟩

private theorem profSum_mul (a b c : ℕ) : profSum a * profSum b * profSum c =
    ∑ i ∈ range (2 * a + 1), ∑ j ∈ range (2 * b + 1), ∑ k ∈ range (2 * c + 1), prof a i * prof b j * prof c k := by
  unfold profSum
  rw [sum_mul_sum, sum_mul]
  refine sum_congr rfl fun i _ => ?_
  rw [sum_mul]
  refine sum_congr rfl fun j _ => ?_
  rw [mul_sum]

private theorem raw_get {a b c : ℕ} (ha : 1 ≤ a) (hb : 1 ≤ b) (hc : 1 ≤ c) (i j k : ℕ) :
    (gaussRaw a b c).get i j k = some (prof a i * prof b j * prof c k) := by
  have e : ∀ {s : ℕ}, 1 ≤ s → ∀ i : ℕ, sqOver s i = some (((i : ℝ) - s) ^ 2 / s) := by
    intro s hs i
    have hs' : (s : ℝ) ≠ 0 := by
      have : (1 : ℝ) ≤ s := by exact_mod_cast hs
      positivity
    unfold sqOver divO
    simp only [bind, Option.bind, Int.cast_natCast, if_neg hs']
    congr 3
    push_cast
    ring
  simp only [gaussRaw, e ha, e hb, e hc, addO, bind, Option.bind, pure, Option.map_some]
  rw [prof, prof, prof, ← Real.exp_add, ← Real.exp_add]
  congr 2
  ring

private theorem raw_sum {a b c : ℕ} (ha : 1 ≤ a) (hb : 1 ≤ b) (hc : 1 ≤ c) :
    (gaussRaw a b c).npSum = some (profSum a * profSum b * profSum c) := by
  unfold Arr3.npSum
  rw [if_neg]
  · congr 1
    simp only [raw_get ha hb hc, Option.getD_some]
    simp only [gaussRaw, gridLen_nat, profSum_mul]
  · rintro ⟨i, -, j, -, k, -, h⟩
    rw [raw_get ha hb hc] at h
    cases h

private theorem kern_get {size : ℝ} {y z : Option ℝ} {a b c : ℕ} (ha : 1 ≤ a) (hb : 1 ≤ b) (hc : 1 ≤ c)
    (h : Spec.HalfSize size none a) (hy : Spec.HalfSize size y b) (hz : Spec.HalfSize size z c) :
    (gaussKern size y z).n = 2 * a + 1 ∧ (gaussKern size y z).m = 2 * b + 1 ∧ (gaussKern size y z).p = 2 * c + 1 ∧
      ∀ i j k, (gaussKern size y z).get i j k =
        some (prof a i * prof b j * prof c k / (profSum a * profSum b * profSum c)) := by
  have e1 : pyInt size = a := kernHalf_eq (o := none) ha h
  have hS : profSum a * profSum b * profSum c ≠ 0 := by
    have := profSum_pos a; have := profSum_pos b; have := profSum_pos c
    positivity
  unfold gaussKern
  rw [e1, kernHalf_eq hb hy, kernHalf_eq hc hz]
  refine ⟨gridLen_nat a, gridLen_nat b, gridLen_nat c, fun i j k => ?_⟩
  simp only [raw_get ha hb hc, raw_sum ha hb hc, divO, bind, Option.bind, if_neg hS]

/-- With sizes of at least one pixel the kernel is an odd box of weights with sum one and a Gaussian profile along each axis. Missing:
sizes below one pixel (`C100_kernel_violated`). -/
theorem C100_kernel_partial {size : ℝ} {y z : Option ℝ} {a b c : ℕ} (ha : 1 ≤ a) (hb : 1 ≤ b) (hc : 1 ≤ c)
    (h : Spec.HalfSize size none a) (hy : Spec.HalfSize size y b) (hz : Spec.HalfSize size z c) :
    Spec.Weights (gaussKern size y z) a b c := by
  obtain ⟨n1, n2, n3, hg⟩ := kern_get ha hb hc h hy hz
  have p1 := profSum_pos a
  have p2 := profSum_pos b
  have p3 := profSum_pos c
  refine ⟨⟨n1, n2, n3⟩, ?_, 1 / (profSum a * profSum b * profSum c), by positivity, ?_⟩
  · simp only [hg, n1, n2, n3, Option.getD_some]
    simp only [← sum_div]
    rw [div_eq_one_iff_eq (by positivity), profSum_mul]
  · intro i _ j _ k _
    rw [hg, prof, prof, prof, ← Real.exp_add, ← Real.exp_add]
    congr 1
    rw [show -(((i : ℝ) - a) ^ 2 / a + ((j : ℝ) - b) ^ 2 / b + ((k : ℝ) - c) ^ 2 / c) =
      -(((i : ℝ) - a) ^ 2 / a) + -(((j : ℝ) - b) ^ 2 / b) + -(((k : ℝ) - c) ^ 2 / c) by ring]
    ring

/-- The hypotheses are met, with three different sizes and with one. -/
example : Spec.Weights (gaussKern 2 (some 3.5) none) 2 3 2 := by
  refine C100_kernel_partial (by norm_num) (by norm_num) (by norm_num) ?_ ?_ ?_ <;> norm_num [Spec.HalfSize]

/-- A size of 0 for the second or third axis means that of the first. -/
theorem C100_default (size : ℝ) (z : Option ℝ) :
    gaussKern size (some 0) z = gaussKern size none z ∧ gaussKern size z (some 0) = gaussKern size z none := by
  constructor <;> simp [gaussKern, kernHalf]

/-- Such weights look the same in the three mirrors and fall off from the centre along every axis. -/
theorem C100_shape {K : Arr3 (Option ℝ)} {a b c : ℕ} (ha : 1 ≤ a) (hb : 1 ≤ b) (hc : 1 ≤ c) (h : Spec.Weights K a b c) :
    (∀ i ≤ 2 * a, ∀ j ≤ 2 * b, ∀ k ≤ 2 * c, K.get (2 * a - i) j k = K.get i j k ∧ K.get i (2 * b - j) k = K.get i j k ∧
      K.get i j (2 * c - k) = K.get i j k) ∧
    (∀ i ≤ 2 * a, ∀ j ≤ 2 * b, ∀ k ≤ 2 * c, ∀ i' ≤ 2 * a, ∀ j' ≤ 2 * b, ∀ k' ≤ 2 * c,
      |(i : ℤ) - a| ≤ |(i' : ℤ) - a| → |(j : ℤ) - b| ≤ |(j' : ℤ) - b| → |(k : ℤ) - c| ≤ |(k' : ℤ) - c| →
      ∃ v v', K.get i j k = some v ∧ K.get i' j' k' = some v' ∧ 0 < v' ∧ v' ≤ v ∧ v ≤ 1 ∧
        (|(i : ℤ) - a| < |(i' : ℤ) - a| ∨ |(j : ℤ) - b| < |(j' : ℤ) - b| ∨ |(k : ℤ) - c| < |(k' : ℤ) - c| → v' < v)) := by
  obtain ⟨⟨n1, n2, n3⟩, htot, T, hT, hp⟩ := h
  rw [n1, n2, n3] at hp
  have ha' : (0 : ℝ) < a := by exact_mod_cast ha
  have hb' : (0 : ℝ) < b := by exact_mod_cast hb
  have hc' : (0 : ℝ) < c := by exact_mod_cast hc
  refine ⟨?_, ?_⟩
  · intro i hi j hj k hk
    have hm : ∀ {s t : ℕ}, t ≤ 2 * s → (((2 * s - t : ℕ) : ℝ) - s) ^ 2 = ((t : ℝ) - s) ^ 2 := by
      intro s t hst
      rw [Nat.cast_sub hst]
      push_cast
      ring
    refine ⟨?_, ?_, ?_⟩
    · rw [hp _ (by omega) _ (by omega) _ (by omega), hp _ (by omega) _ (by omega) _ (by omega), hm hi]
    · rw [hp _ (by omega) _ (by omega) _ (by omega), hp _ (by omega) _ (by omega) _ (by omega), hm hj]
    · rw [hp _ (by omega) _ (by omega) _ (by omega), hp _ (by omega) _ (by omega) _ (by omega), hm hk]
  · intro i hi j hj k hk i' hi' j' hj' k' hk' h1 h2 h3
    have hle : ∀ {s t t' : ℕ}, 0 < (s : ℝ) → |(t : ℤ) - s| ≤ |(t' : ℤ) - s| → ((t : ℝ) - s) ^ 2 / s ≤ ((t' : ℝ) - s) ^ 2 / s := by
      intro s t t' hs hh
      have hh' : |(t : ℝ) - s| ≤ |(t' : ℝ) - s| := by exact_mod_cast hh
      have := sq_le_sq.2 hh'
      gcongr
    have hlt : ∀ {s t t' : ℕ}, 0 < (s : ℝ) → |(t : ℤ) - s| < |(t' : ℤ) - s| → ((t : ℝ) - s) ^ 2 / s < ((t' : ℝ) - s) ^ 2 / s := by
      intro s t t' hs hh
      have hh' : |(t : ℝ) - s| < |(t' : ℝ) - s| := by exact_mod_cast hh
      have := sq_lt_sq.2 hh'
      gcongr
    refine ⟨_, _, hp i (by omega) j (by omega) k (by omega), hp i' (by omega) j' (by omega) k' (by omega), by positivity, ?_, ?_, ?_⟩
    · have q1 := hle ha' h1
      have q2 := hle hb' h2
      have q3 := hle hc' h3
      refine mul_le_mul_of_nonneg_left (Real.exp_le_exp.2 (by linarith)) hT.le
    · have hnn : ∀ i ∈ range K.n, ∀ j ∈ range K.m, ∀ k ∈ range K.p, 0 ≤ (K.get i j k).getD 0 := by
        intro i hi j hj k hk
        rw [hp i (by rw [← n1]; exact mem_range.1 hi) j (by rw [← n2]; exact mem_range.1 hj) k (by rw [← n3]; exact mem_range.1 hk)]
        simp only [Option.getD_some]
        positivity
      have s1 := single_le_sum (f := fun i => ∑ j ∈ range K.m, ∑ k ∈ range K.p, (K.get i j k).getD 0)
        (fun x hx => sum_nonneg fun y hy => sum_nonneg fun z hz => hnn x hx y hy z hz) (mem_range.2 (show i < K.n by omega))
      have s2 := single_le_sum (f := fun j => ∑ k ∈ range K.p, (K.get i j k).getD 0)
        (fun y hy => sum_nonneg fun z hz => hnn i (mem_range.2 (by omega)) y hy z hz) (mem_range.2 (show j < K.m by omega))
      have s3 := single_le_sum (f := fun k => (K.get i j k).getD 0)
        (fun z hz => hnn i (mem_range.2 (by omega)) j (mem_range.2 (by omega)) z hz) (mem_range.2 (show k < K.p by omega))
      rw [htot] at s1
      simp only [hp i (by omega) j (by omega) k (by omega), Option.getD_some] at s3
      linarith
    · intro hor
      have q1 := hle ha' h1
      have q2 := hle hb' h2
      have q3 := hle hc' h3
      refine mul_lt_mul_of_pos_left (Real.exp_lt_exp.2 ?_) hT
      rcases hor with hq | hq | hq
      · have := hlt ha' hq
        linarith
      · have := hlt hb' hq
        linarith
      · have := hlt hc' hq
        linarith

/-- A size below one pixel gives no weights at all: every value of the kernel is NaN. -/
theorem C100_kernel_violated (size : ℝ) (h0 : 0 ≤ size) (h1 : size < 1) (y z : Option ℝ) (i j k : ℕ) :
    (gaussKern size none none).n = 1 ∧ (gaussKern size none none).m = 1 ∧ (gaussKern size none none).p = 1 ∧
      (gaussKern size y z).get i j k = none := by
  have e : pyInt size = ((0 : ℕ) : ℤ) := pyInt_half (by simpa using h0) (by simpa using h1)
  refine ⟨?_, ?_, ?_, ?_⟩
  · simp [gaussKern, gaussRaw, e, gridLen]
  · simp [gaussKern, gaussRaw, e, gridLen, kernHalf]
  · simp [gaussKern, gaussRaw, e, gridLen, kernHalf]
  · simp [gaussKern, gaussRaw, e, sqOver, divO, addO]

/-! ### smoothing -/

private theorem filled_meets (c : Arr3 (Option ℝ)) (a i j k : ℕ) (hi : i < c.n) (hj : j < c.m) (hk : k < c.p) (u v w : ℕ) (hu : u < 2 * a + 1)
    (hv : v < 2 * a + 1) (hw : w < 2 * a + 1) :
    Spec.Meets c a i j k (c.filled ((i : ℤ) - ((u : ℤ) - a)) ((j : ℤ) - ((v : ℤ) - a)) ((k : ℤ) - ((w : ℤ) - a))) := by
  unfold Arr3.filled
  split_ifs with hb
  · obtain ⟨b1, b2, b3, b4, b5, b6⟩ := hb
    refine Or.inl ⟨_, by omega, _, by omega, _, by omega, ?_, ?_, ?_, rfl⟩ <;> rw [abs_le] <;> constructor <;> omega
  · exact Or.inr ⟨rfl, fun hh => hb (by omega)⟩

private theorem meets_filled (c : Arr3 (Option ℝ)) (a i j k : ℕ) (x : Option ℝ)
    (h : Spec.Meets c a i j k x) : ∃ u < 2 * a + 1, ∃ v < 2 * a + 1, ∃ w < 2 * a + 1,
      c.filled ((i : ℤ) - ((u : ℤ) - a)) ((j : ℤ) - ((v : ℤ) - a)) ((k : ℤ) - ((w : ℤ) - a)) = x := by
  rcases h with ⟨x', hx, y', hy, z', hz, d1, d2, d3, e⟩ | ⟨rfl, hout⟩
  · rw [abs_le] at d1 d2 d3
    refine ⟨(i + a - x' : ℤ).toNat, by omega, (j + a - y' : ℤ).toNat, by omega, (k + a - z' : ℤ).toNat, by omega, ?_⟩
    have q1 : (i : ℤ) - (((i + a - x' : ℤ).toNat : ℤ) - a) = x' := by omega
    have q2 : (j : ℤ) - (((j + a - y' : ℤ).toNat : ℤ) - a) = y' := by omega
    have q3 : (k : ℤ) - (((k + a - z' : ℤ).toNat : ℤ) - a) = z' := by omega
    rw [q1, q2, q3]
    unfold Arr3.filled
    rw [if_pos (by omega)]
    simpa using e
  · have hz : ∀ x y z : ℤ, ¬(0 ≤ x ∧ x < c.n ∧ 0 ≤ y ∧ y < c.m ∧ 0 ≤ z ∧ z < c.p) → c.filled x y z = some 0 := by
      intro x y z hn
      unfold Arr3.filled
      rw [if_neg hn]
    by_cases h1 : a ≤ i
    · by_cases h2 : i + a < c.n
      · by_cases h3 : a ≤ j
        · by_cases h4 : j + a < c.m
          · by_cases h5 : a ≤ k
            · exact ⟨0, by omega, 0, by omega, 0, by omega, hz _ _ _ (by omega)⟩
            · exact ⟨0, by omega, 0, by omega, 2 * a, by omega, hz _ _ _ (by omega)⟩
          · exact ⟨0, by omega, 0, by omega, 0, by omega, hz _ _ _ (by omega)⟩
        · exact ⟨0, by omega, 2 * a, by omega, 0, by omega, hz _ _ _ (by omega)⟩
      · exact ⟨0, by omega, 0, by omega, 0, by omega, hz _ _ _ (by omega)⟩
    · exact ⟨2 * a, by omega, 0, by omega, 0, by omega, hz _ _ _ (by omega)⟩

/-- the weights of a voxel -/
private theorem smooth_get {size : ℝ} {a : ℕ} (ha : 1 ≤ a) (h : Spec.HalfSize size none a) (cube : Arr3 (Option ℝ)) :
    ∃ s, convolve3 cube (gaussKern size none none) = .ok s ∧ s.n = cube.n ∧ s.m = cube.m ∧ s.p = cube.p ∧
      ∃ q : ℕ → ℕ → ℕ → ℝ, (∀ u v w, 0 < q u v w) ∧ ∀ i j k, s.get i j k = divO
        (some (∑ u ∈ range (2 * a + 1), ∑ v ∈ range (2 * a + 1), ∑ w ∈ range (2 * a + 1), q u v w *
          (cube.filled ((i : ℤ) - ((u : ℤ) - a)) ((j : ℤ) - ((v : ℤ) - a)) ((k : ℤ) - ((w : ℤ) - a))).getD 0))
        (some (∑ u ∈ range (2 * a + 1), ∑ v ∈ range (2 * a + 1), ∑ w ∈ range (2 * a + 1), q u v w *
          (if (cube.filled ((i : ℤ) - ((u : ℤ) - a)) ((j : ℤ) - ((v : ℤ) - a)) ((k : ℤ) - ((w : ℤ) - a))).isSome then 1 else 0))) := by
  obtain ⟨n1, n2, n3, hg⟩ := kern_get ha ha ha h h h
  have p1 := profSum_pos a
  have hs : (gaussKern size none none).npSum ≠ none := by
    unfold Arr3.npSum
    rw [if_neg]
    · simp
    · rintro ⟨i, -, j, -, k, -, e⟩
      rw [hg] at e
      cases e
  obtain ⟨t, ht⟩ := Option.ne_none_iff_exists'.1 hs
  unfold convolve3
  rw [if_neg (by omega)]
  refine ⟨_, rfl, rfl, rfl, rfl, fun u v w => prof a u * prof a v * prof a w / (profSum a * profSum a * profSum a), ?_, ?_⟩
  · intro u v w
    have := prof_pos a u
    have := prof_pos a v
    have := prof_pos a w
    positivity
  · intro i j k
    have h2 : (2 * a + 1) / 2 = a := by omega
    simp only [ht, kernelSum, n1, n2, n3, hg, Option.getD_some, h2]

/-- The smoothed cube is an average of the voxels around each voxel that are not NaN, with zeros outside the cube: it lies between any
bounds of those values, and is NaN only where there is no such value. -/
theorem C100_smooth {size : ℝ} {a : ℕ} (ha : 1 ≤ a) (h : Spec.HalfSize size none a) (cube : Arr3 (Option ℝ)) :
    ∃ s, convolve3 cube (gaussKern size none none) = .ok s ∧ s.n = cube.n ∧ s.m = cube.m ∧ s.p = cube.p ∧
      ∀ i < cube.n, ∀ j < cube.m, ∀ k < cube.p,
        (s.get i j k = none ↔ ∀ v, Spec.Meets cube a i j k v → v = none) ∧
        ∀ x, s.get i j k = some x → ∀ lo hi, (∀ v, Spec.Meets cube a i j k (some v) → lo ≤ v ∧ v ≤ hi) → lo ≤ x ∧ x ≤ hi := by
  obtain ⟨s, hs, e1, e2, e3, q, hq, hget⟩ := smooth_get ha h cube
  refine ⟨s, hs, e1, e2, e3, fun i hi j hj k hk => ?_⟩
  rw [hget i j k]
  have hm := filled_meets cube a i j k hi hj hk
  have hm' := meets_filled cube a i j k
  set f : ℕ → ℕ → ℕ → Option ℝ := fun u v w =>
    cube.filled ((i : ℤ) - ((u : ℤ) - a)) ((j : ℤ) - ((v : ℤ) - a)) ((k : ℤ) - ((w : ℤ) - a)) with hf
  set R := range (2 * a + 1) with hR
  set B := ∑ u ∈ R, ∑ v ∈ R, ∑ w ∈ R, q u v w * (if (f u v w).isSome then (1 : ℝ) else 0) with hB
  set Tp := ∑ u ∈ R, ∑ v ∈ R, ∑ w ∈ R, q u v w * (f u v w).getD 0 with hTp
  have hterm : ∀ u v w, 0 ≤ q u v w * (if (f u v w).isSome then (1 : ℝ) else 0) := by
    intro u v w
    have := hq u v w
    split_ifs <;> simp [this.le]
  have hB0 : 0 ≤ B := sum_nonneg fun u _ => sum_nonneg fun v _ => sum_nonneg fun w _ => hterm u v w
  have hBz : B = 0 ↔ ∀ u ∈ R, ∀ v ∈ R, ∀ w ∈ R, f u v w = none := by
    rw [hB, sum_eq_zero_iff_of_nonneg (fun u _ => sum_nonneg fun v _ => sum_nonneg fun w _ => hterm u v w)]
    refine forall₂_congr fun u _ => ?_
    rw [sum_eq_zero_iff_of_nonneg (fun v _ => sum_nonneg fun w _ => hterm u v w)]
    refine forall₂_congr fun v _ => ?_
    rw [sum_eq_zero_iff_of_nonneg (fun w _ => hterm u v w)]
    refine forall₂_congr fun w _ => ?_
    have := (hq u v w).ne'
    cases f u v w <;> simp [this]
  have hdiv : divO (some Tp) (some B) = if B = 0 then none else some (Tp / B) := rfl
  rw [hdiv]
  constructor
  · constructor
    · intro hn v hv
      have hB1 : B = 0 := by
        by_contra hne
        rw [if_neg hne] at hn
        cases hn
      obtain ⟨u, hu, v', hv', w, hw, e⟩ := hm' v hv
      rw [← e]
      exact hBz.1 hB1 u (mem_range.2 hu) v' (mem_range.2 hv') w (mem_range.2 hw)
    · intro hall
      rw [if_pos]
      refine hBz.2 fun u hu v hv w hw => ?_
      exact hall _ (hm u v w (mem_range.1 hu) (mem_range.1 hv) (mem_range.1 hw))
  · intro x hx lo hi' hb
    have hB1 : B ≠ 0 := by
      intro hz
      rw [if_pos hz] at hx
      cases hx
    have hBp : 0 < B := lt_of_le_of_ne hB0 (Ne.symm hB1)
    rw [if_neg hB1] at hx
    cases hx
    rw [le_div_iff₀ hBp, div_le_iff₀ hBp, hB, hTp]
    simp only [mul_sum]
    constructor
    · refine sum_le_sum fun u hu => sum_le_sum fun v hv => sum_le_sum fun w hw => ?_
      have h3 := hm u v w (mem_range.1 hu) (mem_range.1 hv) (mem_range.1 hw)
      have h4 := hq u v w
      cases e : f u v w with
      | none => simp
      | some t =>
        have h5 := hb t (by rw [← e]; exact h3)
        simp only [Option.isSome_some, if_true, Option.getD_some]
        nlinarith [h5.1]
    · refine sum_le_sum fun u hu => sum_le_sum fun v hv => sum_le_sum fun w hw => ?_
      have h3 := hm u v w (mem_range.1 hu) (mem_range.1 hv) (mem_range.1 hw)
      have h4 := hq u v w
      cases e : f u v w with
      | none => simp
      | some t =>
        have h5 := hb t (by rw [← e]; exact h3)
        simp only [Option.isSome_some, if_true, Option.getD_some]
        nlinarith [h5.2]

/-! ### the mask -/

private theorem struct_three (x y z : ℤ) : binStruct 3 x y z = true ↔ |x| ≤ 1 ∧ |y| ≤ 1 ∧ |z| ≤ 1 := by
  simp only [binStruct, decide_eq_true_eq]
  constructor
  · rintro ⟨a, b, c, -⟩
    exact ⟨a, b, c⟩
  · rintro ⟨a, b, c⟩
    refine ⟨a, b, c, ?_⟩
    push_cast
    linarith

private theorem dilate_shape (t : ℕ) (m : Arr3 Bool) : ((dilate3 3)^[t] m).n = m.n ∧ ((dilate3 3)^[t] m).m = m.m ∧ ((dilate3 3)^[t] m).p = m.p := by
  induction t with
  | zero => exact ⟨rfl, rfl, rfl⟩
  | succ t ih =>
    rw [Function.iterate_succ_apply']
    exact ih

/-- a step towards `u` -/
private theorem step_between (n t i u : ℕ) (hi : i < n) (hu : u < n) (h : |(i : ℤ) - u| ≤ (t + 1 : ℕ)) :
    ∃ x < n, |(i : ℤ) - x| ≤ 1 ∧ |(x : ℤ) - u| ≤ t := by
  rw [abs_le] at h
  rcases lt_trichotomy i u with h1 | h1 | h1
  · exact ⟨i + 1, by omega, by rw [abs_le]; omega, by rw [abs_le]; omega⟩
  · exact ⟨i, hi, by simp, by rw [abs_le]; omega⟩
  · exact ⟨i - 1, by omega, by rw [abs_le]; omega, by rw [abs_le]; omega⟩

private theorem dilate_iff (t : ℕ) (m : Arr3 Bool) (i j k : ℕ) (hi : i < m.n) (hj : j < m.m) (hk : k < m.p) :
    ((dilate3 3)^[t] m).get i j k = true ↔ ∃ x < m.n, ∃ y < m.m, ∃ z < m.p,
      |(i : ℤ) - x| ≤ t ∧ |(j : ℤ) - y| ≤ t ∧ |(k : ℤ) - z| ≤ t ∧ m.get x y z = true := by
  induction t generalizing i j k with
  | zero =>
    simp only [Function.iterate_zero, id, Nat.cast_zero, abs_nonpos_iff]
    constructor
    · intro h
      exact ⟨i, hi, j, hj, k, hk, by simp, by simp, by simp, h⟩
    · rintro ⟨x, -, y, -, z, -, e1, e2, e3, h⟩
      obtain rfl : i = x := by omega
      obtain rfl : j = y := by omega
      obtain rfl : k = z := by omega
      exact h
  | succ t ih =>
    obtain ⟨s1, s2, s3⟩ := dilate_shape t m
    rw [Function.iterate_succ_apply']
    have e : (dilate3 3 ((dilate3 3)^[t] m)).get i j k = true ↔ ∃ u < m.n, ∃ v < m.m, ∃ w < m.p,
        binStruct 3 ((i : ℤ) - u) ((j : ℤ) - v) ((k : ℤ) - w) = true ∧ ((dilate3 3)^[t] m).get u v w = true := by
      rw [← s1, ← s2, ← s3]
      exact decide_eq_true_iff
    rw [e]
    constructor
    · rintro ⟨u, hu, v, hv, w, hw, hb, hg⟩
      rw [struct_three] at hb
      obtain ⟨x, hx, y, hy, z, hz, d1, d2, d3, hxyz⟩ := (ih u v w hu hv hw).1 hg
      obtain ⟨b1, b2, b3⟩ := hb
      rw [abs_le] at b1 b2 b3 d1 d2 d3
      refine ⟨x, hx, y, hy, z, hz, ?_, ?_, ?_, hxyz⟩ <;> rw [abs_le] <;> omega
    · rintro ⟨x, hx, y, hy, z, hz, d1, d2, d3, hxyz⟩
      obtain ⟨u, hu, u1, u2⟩ := step_between m.n t i x hi hx d1
      obtain ⟨v, hv, v1, v2⟩ := step_between m.m t j y hj hy d2
      obtain ⟨w, hw, w1, w2⟩ := step_between m.p t k z hk hz d3
      exact ⟨u, hu, v, hv, w, hw, (struct_three _ _ _).2 ⟨u1, v1, w1⟩, (ih u v w hu hv hw).2 ⟨x, hx, y, hy, z, hz, u2, v2, w2, hxyz⟩⟩

/-- `moment_masking` never returns a mask: the name it tests first is not defined in its module, whatever is installed. -/
theorem C100_mask_violated (cube : Arr3 (Option ℝ)) (size clip : ℝ) (it : ℤ) :
    momentMasking makeMomentsNames cube size clip it = .error .nameError := rfl

/-- Were the two names defined, the mask would be the voxels within `dilations` pixels (in every axis) of one whose smoothed value exceeds
`clip` times the noise of the smoothed cube, and with `dilations` below 1 everything or nothing. Missing: as the code stands the mask
raises (`C100_mask_violated`). -/
theorem C100_mask_partial (noise : Arr3 (Option ℝ) → ℝ) {size : ℝ} {a : ℕ} (ha : 1 ≤ a) (h : Spec.HalfSize size none a)
    (cube : Arr3 (Option ℝ)) (clip : ℝ) (it : ℤ) :
    ∃ s m, convolve3 cube (gaussKern size none none) = .ok s ∧ momentMasking ⟨some true, some noise⟩ cube size clip it = .ok m ∧
      m.n = cube.n ∧ m.m = cube.m ∧ m.p = cube.p ∧ ∀ i < cube.n, ∀ j < cube.m, ∀ k < cube.p,
        (m.get i j k = true ↔ ∃ x < cube.n, ∃ y < cube.m, ∃ z < cube.p,
          (1 ≤ it → |(i : ℤ) - x| ≤ it ∧ |(j : ℤ) - y| ≤ it ∧ |(k : ℤ) - z| ≤ it) ∧
          ∃ v, s.get x y z = some v ∧ clip * noise s < v) := by
  obtain ⟨s, hs, e1, e2, e3, -⟩ := smooth_get ha h cube
  set m0 : Arr3 Bool := ⟨s.n, s.m, s.p, fun i j k => match s.get i j k with
        | none => false
        | some v => decide (clip * noise s < v)⟩ with hm0
  refine ⟨s, dilations3 3 it m0, hs, by simp only [momentMasking, hs, bind, Except.bind]; rfl, ?_⟩
  have hget : ∀ x y z, m0.get x y z = true ↔ ∃ v, s.get x y z = some v ∧ clip * noise s < v := by
    intro x y z
    simp only [hm0]
    cases s.get x y z <;> simp
  unfold dilations3
  have hsh := dilate_shape (if it < 1 then m0.n * m0.m * m0.p else it.toNat) m0
  refine ⟨hsh.1.trans e1, hsh.2.1.trans e2, hsh.2.2.trans e3, fun i hi j hj k hk => ?_⟩
  have n1 : m0.n = cube.n := e1
  have n2 : m0.m = cube.m := e2
  have n3 : m0.p = cube.p := e3
  rw [dilate_iff _ m0 i j k (by omega) (by omega) (by omega), n1, n2, n3]
  simp only [hget]
  refine exists_congr fun x => and_congr_right fun hx => exists_congr fun y => and_congr_right fun hy => exists_congr fun z =>
    and_congr_right fun hz => ?_
  by_cases hit : it < 1
  · simp only [if_pos hit]
    have b1 : cube.n ≤ cube.n * cube.m * cube.p := by
      rw [mul_assoc]
      exact Nat.le_mul_of_pos_right _ (Nat.mul_pos (by omega) (by omega))
    have b2 : cube.m ≤ cube.n * cube.m * cube.p := by
      rw [mul_comm cube.n, mul_assoc]
      exact Nat.le_mul_of_pos_right _ (Nat.mul_pos (by omega) (by omega))
    have b3 : cube.p ≤ cube.n * cube.m * cube.p := Nat.le_mul_of_pos_left _ (Nat.mul_pos (by omega) (by omega))
    constructor
    · rintro ⟨-, -, -, hv⟩
      exact ⟨fun h1 => absurd h1 (by omega), hv⟩
    · rintro ⟨-, hv⟩
      refine ⟨?_, ?_, ?_, hv⟩ <;> rw [abs_le] <;> omega
  · simp only [if_neg hit]
    have ht : ((it.toNat : ℕ) : ℤ) = it := by omega
    rw [ht]
    constructor
    · rintro ⟨d1, d2, d3, hv⟩
      exact ⟨fun _ => ⟨d1, d2, d3⟩, hv⟩
    · rintro ⟨hd, hv⟩
      obtain ⟨d1, d2, d3⟩ := hd (by omega)
      exact ⟨d1, d2, d3, hv⟩

/-- A cube with one bright voxel: without noise the mask of any dilation holds that voxel. -/
example : ∃ m, momentMasking ⟨some true, some fun _ => 0⟩ ⟨1, 1, 1, fun _ _ _ => some 5⟩ 1 5 1 = .ok m ∧ m.get 0 0 0 = true := by
  have h1 : Spec.HalfSize 1 none 1 := by norm_num [Spec.HalfSize]
  obtain ⟨s, m, hs, hm, -, -, -, hall⟩ := C100_mask_partial (fun _ => 0) (le_refl 1) h1 ⟨1, 1, 1, fun _ _ _ => some 5⟩ 5 1
  refine ⟨m, hm, (hall 0 (by norm_num) 0 (by norm_num) 0 (by norm_num)).2 ⟨0, by norm_num, 0, by norm_num, 0, by norm_num, by simp, ?_⟩⟩
  obtain ⟨s', hs', -, -, -, q, hq, hget⟩ := smooth_get (le_refl 1) h1 (⟨1, 1, 1, fun _ _ _ => some 5⟩ : Arr3 (Option ℝ))
  rw [hs] at hs'
  cases hs'
  have hf : ∀ u v w : ℕ, (∃ t : ℝ, Arr3.filled (⟨1, 1, 1, fun _ _ _ => some 5⟩ : Arr3 (Option ℝ)) (((0 : ℕ) : ℤ) - ((u : ℤ) - (1 : ℕ)))
      (((0 : ℕ) : ℤ) - ((v : ℤ) - (1 : ℕ))) (((0 : ℕ) : ℤ) - ((w : ℤ) - (1 : ℕ))) = some t ∧ 0 ≤ t ∧ (u = 1 ∧ v = 1 ∧ w = 1 → t = 5)) := by
    intro u v w
    unfold Arr3.filled
    split_ifs with hc
    · exact ⟨5, rfl, by norm_num, fun _ => rfl⟩
    · refine ⟨0, rfl, le_refl _, ?_⟩
      rintro ⟨rfl, rfl, rfl⟩
      simp at hc
  choose f hf1 hf2 hf3 using hf
  have hg := hget 0 0 0
  simp only [hf1, Option.getD_some, Option.isSome_some, if_true, mul_one] at hg
  set R := range (2 * 1 + 1) with hR
  have hB : 0 < ∑ u ∈ R, ∑ v ∈ R, ∑ w ∈ R, q u v w :=
    sum_pos (fun u _ => sum_pos (fun v _ => sum_pos (fun w _ => hq u v w) ⟨0, by simp [hR]⟩) ⟨0, by simp [hR]⟩) ⟨0, by simp [hR]⟩
  have hT : 0 < ∑ u ∈ R, ∑ v ∈ R, ∑ w ∈ R, q u v w * f u v w := by
    have hnn : ∀ u v w, 0 ≤ q u v w * f u v w := fun u v w => mul_nonneg (hq u v w).le (hf2 u v w)
    refine sum_pos' (fun u _ => sum_nonneg fun v _ => sum_nonneg fun w _ => hnn u v w) ⟨1, by simp [hR], ?_⟩
    refine sum_pos' (fun v _ => sum_nonneg fun w _ => hnn 1 v w) ⟨1, by simp [hR], ?_⟩
    refine sum_pos' (fun w _ => hnn 1 1 w) ⟨1, by simp [hR], ?_⟩
    rw [hf3 1 1 1 ⟨rfl, rfl, rfl⟩]
    have := hq 1 1 1
    positivity
  refine ⟨(∑ u ∈ R, ∑ v ∈ R, ∑ w ∈ R, q u v w * f u v w) / ∑ u ∈ R, ∑ v ∈ R, ∑ w ∈ R, q u v w, hg.trans ?_, ?_⟩
  · simp only [divO, bind, Option.bind, if_neg hB.ne']
  · rw [mul_zero]
    positivity

/-- With a kernel size below one pixel the mask is empty, however bright the cube. -/
theorem C100_mask_empty_violated (noise : Arr3 (Option ℝ) → ℝ) {size : ℝ} (h0 : 0 ≤ size) (h1 : size < 1) (cube : Arr3 (Option ℝ))
    (clip : ℝ) (it : ℤ) : ∃ m, momentMasking ⟨some true, some noise⟩ cube size clip it = .ok m ∧
      ∀ i < cube.n, ∀ j < cube.m, ∀ k < cube.p, m.get i j k = false := by
  obtain ⟨n1, n2, n3, -⟩ := C100_kernel_violated size h0 h1 none none 0 0 0
  have hnan : (gaussKern size none none).npSum = none := by
    unfold Arr3.npSum
    rw [if_pos ⟨0, by omega, 0, by omega, 0, by omega, (C100_kernel_violated size h0 h1 none none 0 0 0).2.2.2⟩]
  have hs : convolve3 cube (gaussKern size none none) = .ok ⟨cube.n, cube.m, cube.p, fun _ _ _ => none⟩ := by
    unfold convolve3
    rw [if_neg (by omega)]
    simp only [hnan]
  refine ⟨dilations3 3 it ⟨cube.n, cube.m, cube.p, fun _ _ _ => false⟩, by simp only [momentMasking, hs, bind, Except.bind],
    fun i hi j hj k hk => ?_⟩
  unfold dilations3
  rw [← Bool.not_eq_true, dilate_iff _ _ i j k hi hj hk]
  simp

/-! ### the convolution wrapper -/

private theorem first_digit (d : ℕ) (h1 : 1 ≤ d) (h9 : d ≤ 9) (k : ℕ) : ∀ M, d * 10 ^ k ≤ M → M < (d + 1) * 10 ^ k →
    ∃ r, Nat.toDigits 10 M = d.digitChar :: r := by
  induction k with
  | zero =>
    intro M a b
    obtain rfl : M = d := by omega
    exact ⟨[], Nat.toDigits_of_lt_base (by omega)⟩
  | succ k ih =>
    intro M a b
    rw [pow_succ] at a b
    have a' : d * 10 ^ k ≤ M / 10 := by
      rw [Nat.le_div_iff_mul_le (by norm_num)]
      nlinarith
    have b' : M / 10 < (d + 1) * 10 ^ k := by
      rw [Nat.div_lt_iff_lt_mul (by norm_num)]
      nlinarith
    obtain ⟨r, hr⟩ := ih (M / 10) a' b'
    have hpos : 0 < M / 10 := lt_of_lt_of_le (Nat.mul_pos h1 (pow_pos (by norm_num) k)) a'
    have := Nat.toDigits_append_toDigits (b := 10) (n := M / 10) (d := M % 10) (by norm_num) hpos (Nat.mod_lt _ (by norm_num))
    rw [Nat.div_add_mod, hr] at this
    exact ⟨_, this.symm⟩

/-- What the wrapper returns depends on the first digit of the version of astropy only: below two it refuses.  Otherwise it is astropy's
convolution, with the transforms of pyfftw when these are wanted and installed. Missing: major versions of two or more digits, which are
read by their first (`C100_version_violated`). -/
theorem C100_version_partial {α : Type} (installed use : Bool) (conv : FftLib → α) (threads M d : ℕ) (hd : 1 ≤ d) (hd9 : d ≤ 9)
    (h : Spec.LeadingDigit M d) (rest : List Char) :
    convolutionWrapper installed (Nat.toDigits 10 M ++ rest) conv use threads =
      if 2 ≤ d then .ok (conv (if use = true ∧ installed = true then .pyfftw else .numpy)) else .error .runtimeError := by
  obtain ⟨k, a, b⟩ := h
  obtain ⟨r, hr⟩ := first_digit d hd hd9 k M a b
  have hv : versionDigit (Nat.toDigits 10 M ++ rest) = .ok d := by
    rw [hr, List.cons_append]
    interval_cases d <;> rfl
  unfold convolutionWrapper
  rw [hv]
  have hp : pickFft installed use = if use = true ∧ installed = true then .pyfftw else .numpy := by
    cases installed <;> cases use <;> rfl
  simp only [bind, Except.bind, pure, Except.pure, hp]

example : Spec.LeadingDigit 7 7 ∧ Spec.LeadingDigit 12 1 ∧ Spec.LeadingDigit 345 3 :=
  ⟨⟨0, by norm_num, by norm_num⟩, ⟨1, by norm_num, by norm_num⟩, ⟨2, by norm_num, by norm_num⟩⟩

/-- The versions 2 to 9 are accepted, and pyfftw or its absence makes no difference when it computes the same transform. -/
theorem C100_wrapper {α : Type} (installed installed' use use' : Bool) (conv : FftLib → α) (hsame : conv .pyfftw = conv .numpy)
    (threads threads' M : ℕ) (h2 : 2 ≤ M) (h9 : M ≤ 9) (rest : List Char) :
    convolutionWrapper installed (Nat.toDigits 10 M ++ rest) conv use threads = .ok (conv .numpy) ∧
    convolutionWrapper installed (Nat.toDigits 10 M ++ rest) conv use threads =
      convolutionWrapper installed' (Nat.toDigits 10 M ++ rest) conv use' threads' := by
  have h : ∀ (i u : Bool) (t : ℕ), convolutionWrapper i (Nat.toDigits 10 M ++ rest) conv u t = .ok (conv .numpy) := by
    intro i u t
    rw [C100_version_partial i u conv t M M (by omega) h9 ⟨0, by omega, by omega⟩, if_pos h2]
    congr 1
    split_ifs
    · exact hsame
    · rfl
  exact ⟨h _ _ _, (h _ _ _).trans (h _ _ _).symm⟩

/-- The versions 10 to 19, 100 to 199 and so on are refused as being below two. -/
theorem C100_version_violated {α : Type} (installed use : Bool) (conv : FftLib → α) (threads k M : ℕ) (hk : 1 ≤ k) (h1 : 10 ^ k ≤ M)
    (h2 : M < 2 * 10 ^ k) (rest : List Char) :
    2 ≤ M ∧ convolutionWrapper installed (Nat.toDigits 10 M ++ rest) conv use threads = .error .runtimeError := by
  have : 10 ^ 1 ≤ 10 ^ k := Nat.pow_le_pow_right (by norm_num) hk
  refine ⟨by omega, ?_⟩
  rw [C100_version_partial installed use conv threads M 1 (by norm_num) (by norm_num) ⟨k, by omega, by omega⟩]
  rfl

/-! ### the annulus -/

/-- About the origin the profile is the ring it is documented to be: zero at the centre, positive elsewhere. Missing: annuli with
another centre, which is ignored (`C100_annulus_violated`). -/
theorem C100_annulus_partial (x y A s ratio : ℝ) (hA : 0 < A) (hs : 0 < s) (hr : 1 < ratio) :
    annulusEvaluate x y A 0 0 s ratio = Spec.ring x y A 0 0 s ratio ∧ annulusEvaluate 0 0 A 0 0 s ratio = 0 ∧
      (x ≠ 0 ∨ y ≠ 0 → 0 < annulusEvaluate x y A 0 0 s ratio) := by
  refine ⟨by simp [annulusEvaluate, Spec.ring], by simp [annulusEvaluate], fun h => ?_⟩
  have hr2 : 0 < x ^ 2 + y ^ 2 := by
    rcases h with h | h
    · have := sq_nonneg y; have : 0 < x ^ 2 := by positivity
      linarith [sq_nonneg y]
    · have : 0 < y ^ 2 := by positivity
      linarith [sq_nonneg x]
  unfold annulusEvaluate
  refine mul_pos hA (sub_pos.2 (Real.exp_lt_exp.2 ?_))
  rw [neg_div, neg_div, neg_lt_neg_iff]
  have hs2 : 0 < s ^ 2 := by positivity
  have hrr : 1 < ratio ^ 2 := by nlinarith
  refine div_lt_div_of_pos_left hr2 (by positivity) ?_
  rw [mul_pow]
  nlinarith

/-- Its centre cannot be moved: the parameters `x_mean` and `y_mean` have no effect, so that a ring about another place is positive in its
centre. -/
theorem C100_annulus_violated (A s ratio x0 y0 : ℝ) (hA : 0 < A) (hs : 0 < s) (hr : 1 < ratio) (h0 : x0 ≠ 0 ∨ y0 ≠ 0) :
    Spec.ring x0 y0 A x0 y0 s ratio = 0 ∧ 0 < annulusEvaluate x0 y0 A x0 y0 s ratio ∧
      ∀ x y x1 y1, annulusEvaluate x y A x0 y0 s ratio = annulusEvaluate x y A x1 y1 s ratio :=
  ⟨by simp [Spec.ring], (C100_annulus_partial x0 y0 A s ratio hA hs hr).2.2 h0, fun _ _ _ _ => rfl⟩

/-- The profile of the kernel (`Model/DeltaVariance.lean`) is this one about the origin. -/
theorem C100_annulus_kernel (x y A s ratio : ℝ) : annulusEval x y A s ratio = annulusEvaluate x y A 0 0 s ratio := rfl

end TS
