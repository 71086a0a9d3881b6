import Verif.Props.C124
import Verif.Lemmas.Vcs

/-! C124: a periodic map or cube shown over several periods. VCS, and PCA with mean subtraction. -/

namespace TS
open Finset

/-- **VCS.** The spectrum of a cube repeated on the sky is that of the cube times the number of periods, at all frequencies: its shape is kept, its level
is not. A spectrum without value (no pixel to average over) stays without value. -/
theorem C124_vcs {p q : ℕ} (hp : 0 < p) (hq : 0 < q) (cube : Arr3 (Option ℝ)) (hc : 0 < cube.n) (hn : 0 < cube.m) (hm : 0 < cube.p) :
    ∃ ps ps', vcsComputePspec cube = .ok ps ∧ vcsComputePspec (Spec.tiledCube p q cube) = .ok ps' ∧ ps.n = cube.n ∧ ps'.n = cube.n ∧
      ∀ k < cube.n, ps'.get k = (ps.get k).map fun s => ((p * q : ℕ) : ℝ) * s := by
  obtain ⟨ps, h1, h2, h3⟩ := vcs_general cube hc hn hm
  obtain ⟨ps', g1, g2, g3⟩ := vcs_general (Spec.tiledCube p q cube) hc (show 0 < p * cube.m from Nat.mul_pos hp hn) (show 0 < q * cube.p from Nat.mul_pos hq hm)
  have hr : ((p * q : ℕ) : ℝ) ≠ 0 := by exact_mod_cast (Nat.mul_pos hp hq).ne'
  refine ⟨ps, ps', h1, g1, h2, g2, fun k hk => ?_⟩
  have hflag : (vcsInit (Spec.tiledCube p q cube)).1 = (vcsInit cube).1 := by
    unfold vcsInit
    simp only [decide_eq_decide]
    constructor
    · rintro ⟨a, ha, i, _, j, _, h⟩
      exact ⟨a, ha, i % cube.m, Nat.mod_lt _ hn, j % cube.p, Nat.mod_lt _ hm, h⟩
    · rintro ⟨a, ha, i, hi, j, hj, h⟩
      refine ⟨a, ha, i, lt_of_lt_of_le hi (Nat.le_mul_of_pos_left _ hp), j, lt_of_lt_of_le hj (Nat.le_mul_of_pos_left _ hq), ?_⟩
      show cube.get a (i % cube.m) (j % cube.p) = none
      rw [Nat.mod_eq_of_lt hi, Nat.mod_eq_of_lt hj, h]
  have hgood : ∀ f, vcsGoodPixels f (fillNan3 0 (Spec.tiledCube p q cube)) = ((p * q : ℕ) : ℝ) * vcsGoodPixels f (fillNan3 0 cube) := by
    intro f
    unfold vcsGoodPixels
    cases f with
    | false =>
      show ((p * cube.m * (q * cube.p) : ℕ) : ℝ) = ((p * q : ℕ) : ℝ) * ((cube.m * cube.p : ℕ) : ℝ)
      push_cast
      ring
    | true =>
      rw [← nsmul_eq_mul]
      exact sum_tile2 p cube.m q cube.p fun i j => if specMax cube.n (fun a => (fillNan3 0 cube).get a i j) ≠ 0 then (1 : ℝ) else 0
  have hpow : ∑ i ∈ range (p * cube.m), ∑ j ∈ range (q * cube.p), Spec.specPower (fillNan3 0 (Spec.tiledCube p q cube)) i j k =
      ((p * q : ℕ) : ℝ) * ∑ i ∈ range cube.m, ∑ j ∈ range cube.p, Spec.specPower (fillNan3 0 cube) i j k := by
    rw [← nsmul_eq_mul]
    exact sum_tile2 p cube.m q cube.p fun i j => Spec.specPower (fillNan3 0 cube) i j k
  rw [h3 k hk, g3 k hk, hflag, hgood]
  show divO (some (((p * cube.m : ℕ) : ℝ) * ((q * cube.p : ℕ) : ℝ) *
    ∑ i ∈ range (p * cube.m), ∑ j ∈ range (q * cube.p), Spec.specPower (fillNan3 0 (Spec.tiledCube p q cube)) i j k)) _ = _
  rw [hpow]
  generalize vcsGoodPixels (vcsInit cube).1 (fillNan3 0 cube) = g
  generalize ∑ i ∈ range cube.m, ∑ j ∈ range cube.p, Spec.specPower (fillNan3 0 cube) i j k = s
  by_cases hg : g = 0
  · subst hg
    simp [divO]
  · rw [divO_some hg, divO_some (mul_ne_zero hr hg)]
    simp only [Option.map_some]
    congr 1
    have hp0 : (p : ℝ) ≠ 0 := by exact_mod_cast hp.ne'
    have hq0 : (q : ℝ) ≠ 0 := by exact_mod_cast hq.ne'
    push_cast
    field_simp

/-- **PCA with mean subtraction.** For a cube without missing voxels all covariances of the repeated cube are those of one period times the same number,
`k (N - 1) / (k N - 1)` for `k` periods of `N` pixels. Eigenvectors and proportions of variance do not depend on such a factor. -/
theorem C124_pca_mean {p q : ℕ} (hp : 0 < p) (hq : 0 < q) (eps : ℝ) (x : Arr3 ℝ) (hN : 2 ≤ x.m * x.p) (a b : ℕ) :
    (varCovCube eps true (Spec.tiledCube p q (x.map some))).get a b =
      ((p * q : ℕ) * ((x.m * x.p : ℕ) - 1) / ((p * q : ℕ) * (x.m * x.p : ℕ) - 1) : ℝ) * (varCovCube eps true (x.map some)).get a b := by
  set c := x.map some with hcd
  have hpq : 0 < p * q := Nat.mul_pos hp hq
  have hr : ((p * q : ℕ) : ℝ) ≠ 0 := by exact_mod_cast hpq.ne'
  have hr1 : (1 : ℝ) ≤ ((p * q : ℕ) : ℝ) := by exact_mod_cast hpq
  have hN2 : (2 : ℝ) ≤ ((x.m * x.p : ℕ) : ℝ) := by exact_mod_cast hN
  have hN0 : ((x.m * x.p : ℕ) : ℝ) ≠ 0 := by linarith
  have hd : ((x.m * x.p : ℕ) : ℝ) - 1 ≠ 0 := by linarith
  have hd' : ((p * q : ℕ) : ℝ) * ((x.m * x.p : ℕ) : ℝ) - 1 ≠ 0 := by nlinarith
  have gen : ∀ (a b : ℕ) (f : ℝ → ℝ → ℝ),
      ∑ k ∈ range (p * x.m * (q * x.p)), f (x.get a (k / (q * x.p) % x.m) (k % (q * x.p) % x.p)) (x.get b (k / (q * x.p) % x.m) (k % (q * x.p) % x.p)) =
        ((p * q : ℕ) : ℝ) * ∑ k ∈ range (x.m * x.p), f (x.get a (k / x.p) (k % x.p)) (x.get b (k / x.p) (k % x.p)) := by
    intro a b f
    refine (sum_flat (p * x.m) (q * x.p) fun i j => f (x.get a (i % x.m) (j % x.p)) (x.get b (i % x.m) (j % x.p))).trans ?_
    rw [sum_tile2 p x.m q x.p fun i j => f (x.get a i j) (x.get b i j), nsmul_eq_mul]
    congr 1
    exact (sum_flat x.m x.p fun i j => f (x.get a i j) (x.get b i j)).symm
  have cnt : ∀ (n : ℕ) (f : ℕ → ℝ), vecCount n (fun k => some (f k)) = n := by
    intro n f
    simp [vecCount]
  have center : ∀ (n : ℕ) (f : ℕ → ℝ), (n : ℝ) ≠ 0 → vcCenter true n (fun k => some (f k)) = fun k => some (f k - (∑ k ∈ range n, f k) / n) := by
    intro n f hn
    unfold vcCenter
    rw [if_pos rfl, cnt, divO_some hn]
    rfl
  have entry : ∀ (n : ℕ) (f g : ℕ → ℝ), (n : ℝ) - 1 ≠ 0 →
      vcEntry true n (fun k => some (f k)) (fun k => some (g k)) = some ((∑ k ∈ range n, f k * g k) / (n - 1)) := by
    intro n f g hn
    have e : (fun k => mulO (some (f k)) (some (g k))) = fun k => some (f k * g k) := rfl
    unfold vcEntry
    dsimp only
    rw [e, cnt, if_pos rfl, divO_some hn]
    rfl
  let u : ℕ → ℕ → ℝ := fun a k => x.get a (k / x.p) (k % x.p)
  let u' : ℕ → ℕ → ℝ := fun a k => x.get a (k / (q * x.p) % x.m) (k % (q * x.p) % x.p)
  have cast' : ((p * x.m * (q * x.p) : ℕ) : ℝ) = ((p * q : ℕ) : ℝ) * ((x.m * x.p : ℕ) : ℝ) := by push_cast; ring
  have cov : ∀ a b, vcEntry true (p * x.m * (q * x.p)) (vcCenter true (p * x.m * (q * x.p)) fun k => some (u' a k))
      (vcCenter true (p * x.m * (q * x.p)) fun k => some (u' b k)) =
      (vcEntry true (x.m * x.p) (vcCenter true (x.m * x.p) fun k => some (u a k)) (vcCenter true (x.m * x.p) fun k => some (u b k))).map
        fun s => (((p * q : ℕ) : ℝ) * (((x.m * x.p : ℕ) : ℝ) - 1) / (((p * q : ℕ) : ℝ) * ((x.m * x.p : ℕ) : ℝ) - 1)) * s := by
    intro a b
    have mean : ∀ a, (∑ k ∈ range (p * x.m * (q * x.p)), u' a k) / ((p * x.m * (q * x.p) : ℕ) : ℝ) = (∑ k ∈ range (x.m * x.p), u a k) / ((x.m * x.p : ℕ) : ℝ) := by
      intro a
      rw [cast', show ∑ k ∈ range (p * x.m * (q * x.p)), u' a k = _ from gen a a fun s _ => s, mul_div_mul_left _ _ hr]
    rw [center _ (u' a) (by rw [cast']; exact mul_ne_zero hr hN0), center _ (u' b) (by rw [cast']; exact mul_ne_zero hr hN0), center _ (u a) hN0,
      center _ (u b) hN0, entry _ _ _ (by rw [cast']; exact hd'), entry _ _ _ hd, mean, mean, cast']
    simp only [Option.map_some]
    congr 1
    rw [show ∑ k ∈ range (p * x.m * (q * x.p)), (u' a k - (∑ k ∈ range (x.m * x.p), u a k) / ((x.m * x.p : ℕ) : ℝ)) *
        (u' b k - (∑ k ∈ range (x.m * x.p), u b k) / ((x.m * x.p : ℕ) : ℝ)) = _ from
      gen a b fun s t => (s - (∑ k ∈ range (x.m * x.p), u a k) / ((x.m * x.p : ℕ) : ℝ)) * (t - (∑ k ∈ range (x.m * x.p), u b k) / ((x.m * x.p : ℕ) : ℝ))]
    show _ * (∑ k ∈ range (x.m * x.p), _) / _ = _ * ((∑ k ∈ range (x.m * x.p), _) / _)
    rw [div_mul_div_comm, mul_right_comm, mul_div_mul_right _ _ hd]
  have low : ∀ a b, ∃ s, vcLower eps true c a b = some s ∧ vcLower eps true (Spec.tiledCube p q c) a b =
      some ((((p * q : ℕ) : ℝ) * (((x.m * x.p : ℕ) : ℝ) - 1) / (((p * q : ℕ) : ℝ) * ((x.m * x.p : ℕ) : ℝ) - 1)) * s) := by
    intro a b
    have ex : ∀ a b, ∃ s, vcEntry true (x.m * x.p) (vcCenter true (x.m * x.p) fun k => some (u a k)) (vcCenter true (x.m * x.p) fun k => some (u b k)) = some s := by
      intro a b
      rw [center _ (u a) hN0, center _ (u b) hN0, entry _ _ _ hd]
      exact ⟨_, rfl⟩
    obtain ⟨s, hs⟩ := ex a b
    obtain ⟨t, ht⟩ := ex a a
    have k1 := cov a b
    have k2 := cov a a
    rw [hs] at k1
    rw [ht] at k2
    have w : vcLower eps true c a b = if b < a then vcEntry true (x.m * x.p) (vcCenter true (x.m * x.p) fun k => some (u a k))
        (vcCenter true (x.m * x.p) fun k => some (u b k)) else if b = a then mulO (some 0.5) (vcEntry true (x.m * x.p)
          (vcCenter true (x.m * x.p) fun k => some (u a k)) (vcCenter true (x.m * x.p) fun k => some (u a k))) else some 0 := rfl
    have w' : vcLower eps true (Spec.tiledCube p q c) a b = if b < a then vcEntry true (p * x.m * (q * x.p)) (vcCenter true (p * x.m * (q * x.p))
        fun k => some (u' a k)) (vcCenter true (p * x.m * (q * x.p)) fun k => some (u' b k)) else if b = a then mulO (some 0.5)
          (vcEntry true (p * x.m * (q * x.p)) (vcCenter true (p * x.m * (q * x.p)) fun k => some (u' a k))
            (vcCenter true (p * x.m * (q * x.p)) fun k => some (u' a k))) else some 0 := rfl
    rw [w, w', hs, ht, k1, k2]
    split_ifs
    · exact ⟨s, rfl, rfl⟩
    · refine ⟨0.5 * t, rfl, ?_⟩
      show some (0.5 * (_ * t)) = some (_ * (0.5 * t))
      rw [mul_left_comm]
    · exact ⟨0, rfl, by rw [mul_zero]⟩
  obtain ⟨s, h1, h2⟩ := low a b
  obtain ⟨t, h3, h4⟩ := low b a
  show (addO (vcLower eps true (Spec.tiledCube p q c) a b) (vcLower eps true (Spec.tiledCube p q c) b a)).getD 0 =
    _ * (addO (vcLower eps true c a b) (vcLower eps true c b a)).getD 0
  rw [h1, h2, h3, h4]
  show _ * s + _ * t = _ * (s + t)
  rw [mul_add]

/-- Hypotheses of `C124_pca_mean` are met by the cube of `C124_pca_mean_violated`; the factor is 2/3. -/
example : 2 ≤ (⟨1, 1, 2, fun _ _ j => if j = 0 then 1 else 3⟩ : Arr3 ℝ).m * (⟨1, 1, 2, fun _ _ j => if j = 0 then 1 else 3⟩ : Arr3 ℝ).p ∧
    (((2 * 1 : ℕ) : ℝ) * (((1 * 2 : ℕ) : ℝ) - 1) / (((2 * 1 : ℕ) : ℝ) * ((1 * 2 : ℕ) : ℝ) - 1)) * 2 = 4 / 3 := by
  constructor <;> norm_num

end TS
