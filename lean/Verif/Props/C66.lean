import Verif.Model.Bispec
import Verif.Lemmas.Psds
import Mathlib.Analysis.Real.Pi.Bounds

/-! C66 — azimuthal and radial slices of the bispectrum surface. -/

namespace TS
open Finset Classical

namespace Spec

/-- Mean of the finite surface values over the pixels satisfying `P`; NaN if there are none. -/
noncomputable def meanWhere (surf : Arr2 (Option ℝ)) (P : ℕ → ℕ → Prop) : Option ℝ :=
  let px := (range surf.n ×ˢ range surf.m).filter (fun p => P p.1 p.2 ∧ surf.get p.1 p.2 ≠ none)
  if px.card = 0 then none else some ((∑ p ∈ px, (surf.get p.1 p.2).getD 0) / px.card)

/-- Distance of frequency `(i, j)` from the origin. -/
noncomputable def kmag (i j : ℕ) : ℝ := Real.sqrt ((i : ℝ) ^ 2 + (j : ℝ) ^ 2)

/-- Polar angle of frequency `(i, j)`, measured from the second axis. -/
noncomputable def kangle (i j : ℕ) : ℝ := Complex.arg ⟨j, i⟩

/-- Bin `k` of `N` equal bins of `[0, top]`, the last one closed. -/
def InEqualBin (top : ℝ) (N k : ℕ) (x : ℝ) : Prop :=
  k < N ∧ top * k / N ≤ x ∧ (x < top * (k + 1) / N ∨ (k + 1 = N ∧ x = top))

end Spec
open Spec

private theorem dist_get (n m i j : ℕ) : (bispecDist n m).get i j = kmag i j := by
  simp [bispecDist, makeRadialArrays, axisCentre, kmag, pyInt]

private theorem theta_get (n m i j : ℕ) : (bispecTheta n m).get i j = kangle i j := by
  simp [bispecTheta, makeRadialArrays, axisCentre, kangle, pyInt, arctan2]

private theorem lin_get (top : ℝ) {e : ℕ} (he : 2 ≤ e) (i : ℕ) :
    (linspace 0 top e).get i = top * i / ((e - 1 : ℕ) : ℝ) := by
  rw [Nat.cast_sub (by omega)]
  simp [linspace, sub_zero, zero_add]
  ring

private theorem inBin_iff {top : ℝ} (ht : 0 < top) {e : ℕ} (he : 2 ≤ e) (k : ℕ) (x : ℝ) :
    InBin (linspace 0 top e) k x ↔ InEqualBin top (e - 1) k x := by
  have hl := lin_get top he
  have hlast := linspace_last 0 top he
  have hpos : (0 : ℝ) < ((e - 1 : ℕ) : ℝ) := by
    have : 0 < e - 1 := by omega
    exact_mod_cast this
  unfold InBin InEqualBin
  have hn : (linspace 0 top e).n = e := rfl
  rw [hn]
  simp only [hl]
  have hk1 : ∀ k : ℕ, k + 2 = e → top * ((k + 1 : ℕ) : ℝ) / ((e - 1 : ℕ) : ℝ) = top := by
    intro k hk
    have : k + 1 = e - 1 := by omega
    rw [this]; field_simp
  constructor
  · rintro ⟨h1, h2, h3⟩
    refine ⟨by omega, h2, ?_⟩
    rcases h3 with h3 | ⟨h3, h4⟩
    · left; push_cast at h3; exact h3
    · right
      refine ⟨by omega, ?_⟩
      rw [h4, hk1 k (by omega)]
  · rintro ⟨h1, h2, h3⟩
    refine ⟨by omega, h2, ?_⟩
    rcases h3 with h3 | ⟨h3, h4⟩
    · left; push_cast; exact h3
    · right
      exact ⟨by omega, by rw [hk1 k (by omega)]; exact h4⟩

private theorem slice_mean (surf : Arr2 (Option ℝ)) (x : Arr2 ℝ) (mask : Arr2 Bool) {top : ℝ} (ht : 0 < top) {e : ℕ}
    (he : 2 ≤ e) (k : ℕ) :
    (sliceOf surf x mask (linspace 0 top e)).means.get k =
      meanWhere surf (fun i j => mask.get i j = true ∧ InEqualBin top (e - 1) k (x.get i j)) := by
  unfold sliceOf binnedStatistic npMean meanWhere
  simp only
  rw [binned_list, length_filter_pixels, sum_filter_pixels]
  have : (range surf.n ×ˢ range surf.m).filter (fun p => (selected surf (some mask) p &&
        decide (binOf (linspace 0 top e) (x.get p.1 p.2) = some k)) = true) =
      (range surf.n ×ˢ range surf.m).filter (fun p => (mask.get p.1 p.2 = true ∧
        InEqualBin top (e - 1) k (x.get p.1 p.2)) ∧ surf.get p.1 p.2 ≠ none) := by
    apply filter_congr
    intro p _
    rw [Bool.and_eq_true, decide_eq_true_iff,
      binOf_eq_some_iff (linspace_edges ht he) he, inBin_iff ht he]
    unfold selected
    rw [Bool.and_eq_true, Option.isSome_iff_ne_none]
    tauto
  rw [this]

private theorem floor_toNat {x : ℝ} (h : ¬ ⌊x⌋ < 2) : 2 ≤ ⌊x⌋.toNat := by omega

/-- Azimuthal slice: `N = floor(π / width) - 1` equal bins of `[0, π]`; each value is the mean of the finite
surface values in the annulus and in that bin of angle.  (Needs `width ≤ π/2`.) Missing: the bins should have the width asked for
(`C66_bins_too_wide`). -/
theorem C66_azimuthal_partial (surf : Arr2 (Option ℝ)) (rad del bw : ℝ) (h : 2 ≤ ⌊Real.pi / bw⌋) :
    ∃ s, azimuthalSlice surf rad del bw = .ok s ∧ (s.means.n : ℤ) = ⌊Real.pi / bw⌋ - 1 ∧
      s.centres.n = s.means.n ∧
      ∀ k < s.means.n,
        s.centres.get k = Real.pi * (k + 1 / 2) / s.means.n ∧
        s.means.get k = meanWhere surf (fun i j => |kmag i j - rad| ≤ del / 2 ∧
          InEqualBin Real.pi s.means.n k (kangle i j)) := by
  have h2 := floor_toNat (not_lt.2 h)
  unfold azimuthalSlice sliceEdges
  rw [if_neg (not_lt.2 h)]
  simp only [bind, Except.bind, pure, Except.pure]
  refine ⟨_, rfl, ?_, rfl, ?_⟩
  · change (((⌊Real.pi / bw⌋.toNat - 1 : ℕ)) : ℤ) = _
    omega
  · intro k hk
    have hn : (sliceOf surf (bispecTheta surf.n surf.m) ⟨surf.n, surf.m, fun i j =>
        decide (rad - del / 2 ≤ (bispecDist surf.n surf.m).get i j) &&
        decide ((bispecDist surf.n surf.m).get i j ≤ rad + del / 2)⟩ (linspace 0 Real.pi ⌊Real.pi / bw⌋.toNat)).means.n =
        ⌊Real.pi / bw⌋.toNat - 1 := rfl
    rw [hn] at hk ⊢
    constructor
    · simp only [sliceOf, lin_get _ h2]
      have : (0 : ℝ) < ((⌊Real.pi / bw⌋.toNat - 1 : ℕ) : ℝ) := by
        have : 0 < ⌊Real.pi / bw⌋.toNat - 1 := by omega
        exact_mod_cast this
      rw [Nat.cast_add, Nat.cast_one]
      field_simp
      ring
    · rw [slice_mean _ _ _ Real.pi_pos h2]
      unfold meanWhere
      simp only [Bool.and_eq_true, decide_eq_true_eq, dist_get, theta_get]
      have : ∀ p : ℕ × ℕ, ((rad - del / 2 ≤ kmag p.1 p.2 ∧ kmag p.1 p.2 ≤ rad + del / 2) ↔ |kmag p.1 p.2 - rad| ≤ del / 2) := by
        intro p
        rw [abs_le]
        constructor
        · rintro ⟨a, b⟩; constructor <;> linarith
        · rintro ⟨a, b⟩; constructor <;> linarith
      simp only [this]

private theorem max_dist {n m : ℕ} (hn : 0 < n) (hm : 0 < m) : npMax (bispecDist n m).ravel = .ok (kmag (n - 1) (m - 1)) := by
  apply npMax_eq
  · rw [mem_ravel]
    exact ⟨n - 1, by change n - 1 < n; omega, m - 1, by change m - 1 < m; omega, dist_get _ _ _ _⟩
  · intro y hy
    obtain ⟨i, hi, j, hj, rfl⟩ := mem_ravel.1 hy
    rw [dist_get]
    have hi' : i ≤ n - 1 := by change i < n at hi; omega
    have hj' : j ≤ m - 1 := by change j < m at hj; omega
    unfold kmag
    apply Real.sqrt_le_sqrt
    have a : (i : ℝ) ≤ ((n - 1 : ℕ) : ℝ) := by exact_mod_cast hi'
    have b : (j : ℝ) ≤ ((m - 1 : ℕ) : ℝ) := by exact_mod_cast hj'
    have : (0 : ℝ) ≤ i := Nat.cast_nonneg i
    have : (0 : ℝ) ≤ j := Nat.cast_nonneg j
    nlinarith

/-- Radial slice: `N = floor(D / width) - 1` equal bins of `[0, D]`, `D` the largest frequency of the surface;
each value is the mean of the finite surface values in the wedge and in that bin of radius. Missing: the bins should have the width
asked for (`C66_bins_too_wide`). -/
theorem C66_radial_partial (surf : Arr2 (Option ℝ)) (hn : 0 < surf.n) (hm : 0 < surf.m) (theta del bw : ℝ)
    (hD : 0 < kmag (surf.n - 1) (surf.m - 1)) (h : 2 ≤ ⌊kmag (surf.n - 1) (surf.m - 1) / bw⌋) :
    ∃ s, radialSlice surf theta del bw = .ok s ∧ (s.means.n : ℤ) = ⌊kmag (surf.n - 1) (surf.m - 1) / bw⌋ - 1 ∧
      s.centres.n = s.means.n ∧
      ∀ k < s.means.n,
        s.centres.get k = kmag (surf.n - 1) (surf.m - 1) * (k + 1 / 2) / s.means.n ∧
        s.means.get k = meanWhere surf (fun i j => |kangle i j - theta| ≤ del / 2 ∧
          InEqualBin (kmag (surf.n - 1) (surf.m - 1)) s.means.n k (kmag i j)) := by
  have h2 := floor_toNat (not_lt.2 h)
  unfold radialSlice sliceEdges
  simp only [max_dist hn hm, bind, Except.bind, pure, Except.pure]
  rw [if_neg (not_lt.2 h)]
  simp only
  set D := kmag (surf.n - 1) (surf.m - 1) with hDdef
  refine ⟨_, rfl, ?_, rfl, ?_⟩
  · change (((⌊D / bw⌋.toNat - 1 : ℕ)) : ℤ) = _
    omega
  · intro k hk
    have hn' : (sliceOf surf (bispecDist surf.n surf.m) ⟨surf.n, surf.m, fun i j =>
        decide (theta - del / 2 ≤ (bispecTheta surf.n surf.m).get i j) &&
        decide ((bispecTheta surf.n surf.m).get i j ≤ theta + del / 2)⟩ (linspace 0 D ⌊D / bw⌋.toNat)).means.n =
        ⌊D / bw⌋.toNat - 1 := rfl
    rw [hn'] at hk ⊢
    constructor
    · simp only [sliceOf, lin_get _ h2]
      have : (0 : ℝ) < ((⌊D / bw⌋.toNat - 1 : ℕ) : ℝ) := by
        have : 0 < ⌊D / bw⌋.toNat - 1 := by omega
        exact_mod_cast this
      rw [Nat.cast_add, Nat.cast_one]
      field_simp
      ring
    · rw [slice_mean _ _ _ hD h2]
      unfold meanWhere
      simp only [Bool.and_eq_true, decide_eq_true_eq, dist_get, theta_get]
      have : ∀ p : ℕ × ℕ, ((theta - del / 2 ≤ kangle p.1 p.2 ∧ kangle p.1 p.2 ≤ theta + del / 2) ↔ |kangle p.1 p.2 - theta| ≤ del / 2) := by
        intro p
        rw [abs_le]
        constructor
        · rintro ⟨a, b⟩; constructor <;> linarith
        · rintro ⟨a, b⟩; constructor <;> linarith
      simp only [this]

/-- The bins are always wider than the width asked for. -/
theorem C66_bins_too_wide (top bw : ℝ) (ht : 0 < top) (hb : 0 < bw) (h : 2 ≤ ⌊top / bw⌋) :
    ∃ e, sliceEdges top bw = .ok e ∧ ∀ k, k + 1 < e.n → bw < e.get (k + 1) - e.get k := by
  refine ⟨_, if_neg (not_lt.2 h), ?_⟩
  intro k hk
  have h2 := floor_toNat (not_lt.2 h)
  have hf : ((⌊top / bw⌋.toNat - 1 : ℕ) : ℝ) < top / bw := by
    have h1 : (⌊top / bw⌋ : ℝ) ≤ top / bw := Int.floor_le _
    have h3 : ((⌊top / bw⌋.toNat - 1 : ℕ) : ℤ) = ⌊top / bw⌋ - 1 := by omega
    have h4 : ((⌊top / bw⌋.toNat - 1 : ℕ) : ℝ) = (⌊top / bw⌋ : ℝ) - 1 := by exact_mod_cast h3
    rw [h4]; linarith
  have hp : (0 : ℝ) < ((⌊top / bw⌋.toNat - 1 : ℕ) : ℝ) := by
    have : 0 < ⌊top / bw⌋.toNat - 1 := by omega
    exact_mod_cast this
  have e : (linspace 0 top ⌊top / bw⌋.toNat).get (k + 1) - (linspace 0 top ⌊top / bw⌋.toNat).get k =
      top / ((⌊top / bw⌋.toNat - 1 : ℕ) : ℝ) := by
    simp only [lin_get _ h2]
    rw [Nat.cast_add, Nat.cast_one]
    field_simp
    ring
  rw [e, lt_div_iff₀ hp]
  rw [lt_div_iff₀ hb] at hf
  linarith

/-- The surface only has angles up to 90°, so every azimuthal bin that starts above 90° is NaN. -/
theorem C66_empty_half (surf : Arr2 (Option ℝ)) (rad del bw : ℝ) (h : 2 ≤ ⌊Real.pi / bw⌋) (s : BispecSlice)
    (hs : azimuthalSlice surf rad del bw = .ok s) (k : ℕ) (hk : k < s.means.n)
    (hhalf : Real.pi / 2 < Real.pi * k / s.means.n) : s.means.get k = none := by
  obtain ⟨s', hs', _, _, hv⟩ := C66_azimuthal_partial surf rad del bw h
  rw [hs] at hs'; cases hs'
  rw [(hv k hk).2]
  unfold meanWhere
  simp only
  rw [if_pos]
  rw [card_eq_zero, filter_eq_empty_iff]
  rintro p _ ⟨⟨_, hb⟩, _⟩
  have : kangle p.1 p.2 ≤ Real.pi / 2 := by
    unfold kangle
    rw [Complex.arg_le_pi_div_two_iff]
    left; simp
  have := hb.2.1
  linarith

example : 2 ≤ ⌊Real.pi / 1⌋ := by
  rw [div_one, Int.le_floor]; push_cast; linarith [Real.pi_gt_three]

end TS
