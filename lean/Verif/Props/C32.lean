import Verif.Model.ThreeDToTwoD
import Mathlib.Tactic.NormNum
import Mathlib.Tactic.FieldSimp
import Mathlib.Tactic.Positivity

/-! C32 — the channel covariance matrix of PCA. -/

namespace TS
open Finset

namespace Spec

/-- The cube has no missing voxel: `x i k` is the value of channel `i` at flat sky pixel `k`. -/
def FullCube (cube : Arr3 (Option ℝ)) (x : ℕ → ℕ → ℝ) : Prop :=
  0 < cube.p ∧ ∀ i < cube.n, ∀ r < cube.m, ∀ c < cube.p, cube.get i r c = some (x i (r * cube.p + c))

/-- Mean of a channel of `N` pixels. -/
noncomputable def chanMean (N : ℕ) (u : ℕ → ℝ) : ℝ := (∑ k ∈ range N, u k) / N

/-- Mean product, or sample covariance with mean subtraction. -/
noncomputable def covariance (meanSub : Bool) (N : ℕ) (u v : ℕ → ℝ) : ℝ :=
  if meanSub then (∑ k ∈ range N, (u k - chanMean N u) * (v k - chanMean N v)) / (N - 1)
  else (∑ k ∈ range N, u k * v k) / N

/-- Positive semi-definite. -/
def PosSemidef (n : ℕ) (C : ℕ → ℕ → ℝ) : Prop :=
  ∀ w : ℕ → ℝ, 0 ≤ ∑ i ∈ range n, ∑ j ∈ range n, w i * w j * C i j

end Spec

/-- Always symmetric, whatever is missing. -/
theorem C32_symmetric (eps : ℝ) (meanSub : Bool) (cube : Arr3 (Option ℝ)) (i j : ℕ) :
    (varCovCube eps meanSub cube).get i j = (varCovCube eps meanSub cube).get j i := by
  unfold varCovCube
  simp only
  have : ∀ a b : Option ℝ, addO a b = addO b a := by
    intro a b
    cases a <;> cases b <;> simp [addO, add_comm]
  rw [this]

private theorem chanVec_full {cube : Arr3 (Option ℝ)} {x : ℕ → ℕ → ℝ} (h : Spec.FullCube cube x) {i : ℕ}
    (hi : i < cube.n) {k : ℕ} (hk : k < cube.m * cube.p) : chanVec cube i k = some (x i k) := by
  unfold chanVec
  rw [h.2 i hi (k / cube.p) (Nat.div_lt_of_lt_mul (by rwa [Nat.mul_comm])) (k % cube.p) (Nat.mod_lt _ h.1),
    Nat.div_add_mod']

/-- A vector that agrees with real values on its length. -/
private def Agrees (N : ℕ) (c : ℕ → Option ℝ) (u : ℕ → ℝ) : Prop := ∀ k < N, c k = some (u k)

private theorem agrees_sum {N : ℕ} {c : ℕ → Option ℝ} {u : ℕ → ℝ} (h : Agrees N c u) :
    vecNansum N c = ∑ k ∈ range N, u k := by
  unfold vecNansum
  exact sum_congr rfl (fun k hk => by rw [h k (mem_range.1 hk)]; rfl)

private theorem agrees_count {N : ℕ} {c : ℕ → Option ℝ} {u : ℕ → ℝ} (h : Agrees N c u) :
    vecCount N c = N := by
  unfold vecCount
  rw [sum_congr rfl (g := fun _ => 1) (fun k hk => by rw [h k (mem_range.1 hk)]; rfl)]
  simp

private noncomputable def centred (meanSub : Bool) (N : ℕ) (u : ℕ → ℝ) : ℕ → ℝ :=
  fun k => if meanSub then u k - Spec.chanMean N u else u k

private theorem agrees_center {N : ℕ} {c : ℕ → Option ℝ} {u : ℕ → ℝ} (h : Agrees N c u) (meanSub : Bool) :
    Agrees N (vcCenter meanSub N c) (centred meanSub N u) := by
  intro k hk
  unfold vcCenter centred
  cases meanSub
  · simp [h k hk]
  · have hN : (N : ℝ) ≠ 0 := by
      have : 0 < N := by omega
      positivity
    simp only [if_true, h k hk, agrees_sum h, agrees_count h]
    simp [divO, subO, hN, Spec.chanMean]

private theorem entry_full {N : ℕ} {a b : ℕ → Option ℝ} {u v : ℕ → ℝ} (ha : Agrees N a u)
    (hb : Agrees N b v) (meanSub : Bool) :
    (vcEntry meanSub N (vcCenter meanSub N a) (vcCenter meanSub N b)).getD 0 = Spec.covariance meanSub N u v := by
  have ha' := agrees_center ha meanSub
  have hb' := agrees_center hb meanSub
  have hp : Agrees N (fun k => mulO (vcCenter meanSub N a k) (vcCenter meanSub N b k))
      (fun k => centred meanSub N u k * centred meanSub N v k) := by
    intro k hk
    simp only [ha' k hk, hb' k hk]; rfl
  unfold vcEntry
  simp only
  rw [agrees_sum hp, agrees_count hp]
  unfold Spec.covariance centred
  by_cases hd : (N : ℝ) - (if meanSub = true then 1 else 0) = 0
  · simp only [divO, hd]
    cases meanSub
    · simp only [Bool.false_eq_true, if_false, sub_zero] at hd ⊢
      simp [hd]
    · simp only [if_true] at hd ⊢
      rw [hd]; simp
  · simp only [divO]
    cases meanSub
    · simp only [Bool.false_eq_true, if_false, sub_zero] at hd ⊢
      simp [hd]
    · simp only [if_true] at hd ⊢
      simp [hd]

private theorem cov_comm (meanSub : Bool) (N : ℕ) (u v : ℕ → ℝ) :
    Spec.covariance meanSub N u v = Spec.covariance meanSub N v u := by
  unfold Spec.covariance
  cases meanSub
  · simp only [Bool.false_eq_true, if_false, mul_comm]
  · simp only [if_true, mul_comm]

/-- Without missing voxels every entry is the mean product of the two channels, or their sample
covariance with mean subtraction. -/
theorem C32_values (eps : ℝ) (meanSub : Bool) (cube : Arr3 (Option ℝ)) (x : ℕ → ℕ → ℝ)
    (h : Spec.FullCube cube x) (i j : ℕ) (hi : i < cube.n) (hj : j < cube.n) :
    (varCovCube eps meanSub cube).get i j = Spec.covariance meanSub (cube.m * cube.p) (x i) (x j) := by
  set N := cube.m * cube.p with hN
  have ag : ∀ i < cube.n, Agrees N (chanVec cube i) (x i) := fun i hi k hk => chanVec_full h hi hk
  have agf : ∀ i < cube.n, Agrees N (vcFill eps (chanVec cube i)) (x i) := by
    intro i hi k hk
    unfold vcFill
    rw [ag i hi k hk]; rfl
  have low : ∀ i < cube.n, ∀ j < i, ∀ o, vcLower eps meanSub cube i j = o →
      (addO o (some 0)).getD 0 = Spec.covariance meanSub N (x i) (x j) := by
    intro i hi j hj o ho
    subst ho
    unfold vcLower
    simp only
    rw [if_pos hj]
    rw [← entry_full (agf i hi) (ag j (by omega)) meanSub, hN]
    cases vcEntry meanSub (cube.m * cube.p) (vcCenter meanSub (cube.m * cube.p) (vcFill eps (chanVec cube i)))
      (vcCenter meanSub (cube.m * cube.p) (chanVec cube j)) <;> simp [addO]
  have up : ∀ i j, i < j → vcLower eps meanSub cube i j = some 0 := by
    intro i j hij
    unfold vcLower
    simp only
    rw [if_neg (by omega), if_neg (by omega)]
  rcases lt_trichotomy i j with hij | hij | hij
  · rw [C32_symmetric, cov_comm]
    unfold varCovCube
    simp only
    rw [up i j hij]
    exact low j hj i hij _ rfl
  · subst hij
    unfold varCovCube
    simp only
    unfold vcLower
    simp only [lt_irrefl, if_false, if_true]
    rw [← entry_full (agf i hi) (agf i hi) meanSub, hN]
    cases vcEntry meanSub (cube.m * cube.p) (vcCenter meanSub (cube.m * cube.p) (vcFill eps (chanVec cube i)))
      (vcCenter meanSub (cube.m * cube.p) (vcFill eps (chanVec cube i))) with
    | none => simp [addO, mulO]
    | some v => simp [addO, mulO]; ring
  · unfold varCovCube
    simp only
    rw [up j i hij]
    exact low i hi j hij _ rfl

/-- Without missing voxels (and with at least one pixel) the matrix is positive semi-definite. -/
theorem C32_psd (eps : ℝ) (meanSub : Bool) (cube : Arr3 (Option ℝ)) (x : ℕ → ℕ → ℝ)
    (h : Spec.FullCube cube x) (hpix : 0 < cube.m * cube.p) :
    Spec.PosSemidef cube.n (varCovCube eps meanSub cube).get := by
  intro w
  set N := cube.m * cube.p with hN
  have h1 : ∑ i ∈ range cube.n, ∑ j ∈ range cube.n, w i * w j * (varCovCube eps meanSub cube).get i j =
      ∑ i ∈ range cube.n, ∑ j ∈ range cube.n, w i * w j * Spec.covariance meanSub N (x i) (x j) :=
    sum_congr rfl (fun i hi => sum_congr rfl (fun j hj => by
      rw [C32_values eps meanSub cube x h i j (mem_range.1 hi) (mem_range.1 hj)]))
  rw [h1]
  set d : ℝ := (N : ℝ) - (if meanSub then 1 else 0) with hd
  have hdn : 0 ≤ d := by
    have : (1 : ℝ) ≤ N := by exact_mod_cast hpix
    rw [hd]; split_ifs <;> linarith
  have h2 : ∀ i j, Spec.covariance meanSub N (x i) (x j) =
      (∑ k ∈ range N, centred meanSub N (x i) k * centred meanSub N (x j) k) / d := by
    intro i j
    unfold Spec.covariance centred
    cases meanSub
    · simp [hd]
    · simp [hd]
  simp only [h2]
  have h3 : ∑ i ∈ range cube.n, ∑ j ∈ range cube.n, w i * w j *
      ((∑ k ∈ range N, centred meanSub N (x i) k * centred meanSub N (x j) k) / d) =
      (∑ k ∈ range N, (∑ i ∈ range cube.n, w i * centred meanSub N (x i) k) ^ 2) / d := by
    have e : ∀ k, (∑ i ∈ range cube.n, w i * centred meanSub N (x i) k) ^ 2 =
        ∑ i ∈ range cube.n, ∑ j ∈ range cube.n,
          w i * w j * (centred meanSub N (x i) k * centred meanSub N (x j) k) := by
      intro k
      rw [sq, sum_mul_sum]
      exact sum_congr rfl (fun i _ => sum_congr rfl (fun j _ => by ring))
    simp only [e]
    symm
    rw [sum_comm, sum_div]
    refine sum_congr rfl (fun i _ => ?_)
    rw [sum_comm, sum_div]
    refine sum_congr rfl (fun j _ => ?_)
    rw [← mul_sum, mul_div_assoc]
  rw [h3]
  exact div_nonneg (sum_nonneg (fun _ _ => sq_nonneg _)) hdn

/-- Multiplying the cube by `c` multiplies the matrix by `c²`. -/
theorem C32_scale (eps : ℝ) (meanSub : Bool) (cube cube' : Arr3 (Option ℝ)) (x : ℕ → ℕ → ℝ) (c : ℝ)
    (h : Spec.FullCube cube x) (h' : Spec.FullCube cube' (fun i k => c * x i k))
    (hs : cube'.n = cube.n ∧ cube'.m = cube.m ∧ cube'.p = cube.p) (i j : ℕ) (hi : i < cube.n) (hj : j < cube.n) :
    (varCovCube eps meanSub cube').get i j = c ^ 2 * (varCovCube eps meanSub cube).get i j := by
  rw [C32_values eps meanSub cube x h i j hi hj,
    C32_values eps meanSub cube' _ h' i j (by omega) (by omega), hs.2.1, hs.2.2]
  have hm : ∀ u : ℕ → ℝ, Spec.chanMean (cube.m * cube.p) (fun k => c * u k) = c * Spec.chanMean (cube.m * cube.p) u := by
    intro u; unfold Spec.chanMean; rw [← mul_sum, mul_div_assoc]
  unfold Spec.covariance
  cases meanSub
  · simp only [Bool.false_eq_true, if_false]
    rw [← mul_div_assoc, mul_sum]
    congr 1
    exact sum_congr rfl (fun k _ => by ring)
  · simp only [if_true, hm]
    rw [← mul_div_assoc, mul_sum]
    congr 1
    exact sum_congr rfl (fun k _ => by ring)

/-- With mean subtraction, adding a constant to every channel changes nothing. -/
theorem C32_offset (eps : ℝ) (cube cube' : Arr3 (Option ℝ)) (x : ℕ → ℕ → ℝ) (b : ℕ → ℝ)
    (h : Spec.FullCube cube x) (h' : Spec.FullCube cube' (fun i k => x i k + b i))
    (hs : cube'.n = cube.n ∧ cube'.m = cube.m ∧ cube'.p = cube.p) (hpix : 0 < cube.m * cube.p)
    (i j : ℕ) (hi : i < cube.n) (hj : j < cube.n) :
    (varCovCube eps true cube').get i j = (varCovCube eps true cube).get i j := by
  rw [C32_values eps true cube x h i j hi hj,
    C32_values eps true cube' _ h' i j (by omega) (by omega), hs.2.1, hs.2.2]
  have hN : ((cube.m * cube.p : ℕ) : ℝ) ≠ 0 := by
    have : (0 : ℝ) < ((cube.m * cube.p : ℕ) : ℝ) := by exact_mod_cast hpix
    exact this.ne'
  have hm : ∀ (u : ℕ → ℝ) (t : ℝ), Spec.chanMean (cube.m * cube.p) (fun k => u k + t) =
      Spec.chanMean (cube.m * cube.p) u + t := by
    intro u t; unfold Spec.chanMean
    rw [sum_add_distrib, sum_const, card_range, nsmul_eq_mul]
    field_simp
  unfold Spec.covariance
  simp only [if_true, hm]
  congr 1
  exact sum_congr rfl (fun k _ => by ring)

/-- Beyond the property: with a missing voxel the matrix need not be positive semi-definite, because the
missing voxel counts as (almost) zero in the variance of its channel but is left out of the covariance. -/
theorem C32_missing_not_psd (eps : ℝ) (h0 : 0 ≤ eps) (h1 : eps < 1) :
    ¬ Spec.PosSemidef 2 (varCovCube eps false
      ⟨2, 1, 2, fun v _ c => if v = 0 ∧ c = 1 then none else some 1⟩).get := by
  intro h
  have := h (fun i => if i = 0 then 1 else -1)
  simp only [sum_range_succ, range_zero, sum_empty] at this
  simp [varCovCube, vcLower, vcEntry, vcCenter, vcFill, chanVec, vecCount, vecNansum, sum_range_succ, addO,
    mulO, divO] at this
  rw [if_neg (fun hx => by have := hx (Nat.zero_le 1); omega),
    show #{x ∈ range 2 | x % 2 = 0} = 1 from by decide] at this
  norm_num at this
  nlinarith

/-- The hypotheses are met by a cube of two channels and two pixels. -/
example : Spec.FullCube ⟨2, 1, 2, fun v _ c => some ((v : ℝ) + c)⟩ (fun v k => (v : ℝ) + k) := by
  refine ⟨by norm_num, fun i _ r hr c _ => ?_⟩
  simp only at hr
  have : r = 0 := by omega
  subst this
  simp

end TS
