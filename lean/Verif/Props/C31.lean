import Mathlib.Data.Real.Pointwise
import Mathlib.Algebra.Order.BigOperators.Ring.Finset
import Verif.Model.ThreeDToTwoD
import Verif.Lemmas.Loop
import Mathlib.Tactic.NormNum

/-! C31 — the spectra format. -/

namespace TS
open Finset

namespace Spec
/-- Column `s` of the matrix is the whole spectrum of sky pixel `(i, j)`. -/
def IsSpectrumOf {α : Type*} (cube : Arr3 α) (out : Arr2 α) (s : ℕ) (q : ℕ × ℕ) : Prop :=
  q.1 < cube.m ∧ q.2 < cube.p ∧ ∀ v < cube.n, out.get v s = cube.get v q.1 q.2

/-- The summed brightness of a sky pixel (missing channels count as zero). -/
noncomputable def brightness (cube : Arr3 (Option ℝ)) (q : ℕ × ℕ) : ℝ :=
  ∑ v ∈ range cube.n, (cube.get v q.1 q.2).getD 0
end Spec

private theorem spectraData_ok {α : Type*} {cube : Arr3 α} {k : ℕ} {bright : ℕ → ℕ} (h : k ≤ cube.m * cube.p)
    (hlt : ∀ s < k, bright s / cube.m < cube.m) : spectraData cube k bright =
      .ok ⟨cube.n, k, fun v s => cube.get v (bright s / cube.m) (bright s % cube.p)⟩ := by
  unfold spectraData
  rw [if_neg (by omega), if_pos hlt]

/-- On square maps the columns are the spectra of `num_spec` different sky pixels, and these are the
brightest ones.  Missing: maps that are not square, where it fails (`C31_wide_raises`,
`C31_tall_misses`). -/
theorem C31_square_partial (cube : Arr3 (Option ℝ)) (hsq : cube.m = cube.p) (numSpec : ℕ) (bright : ℕ → ℕ)
    (hk : numSpec ≤ cube.m * cube.p) (hb : Argpart (cube.m * cube.p) (skyBrightness cube) numSpec bright) :
    ∃ (out : Arr2 (Option ℝ)) (pix : ℕ → ℕ × ℕ), spectraData cube numSpec bright = .ok out ∧ out.n = cube.n ∧ out.m = numSpec ∧
      (∀ s < numSpec, Spec.IsSpectrumOf cube out s (pix s)) ∧
      (∀ s < numSpec, ∀ t < numSpec, pix s = pix t → s = t) ∧
      (∀ i < cube.m, ∀ j < cube.p, (∀ t < numSpec, pix t ≠ (i, j)) → ∀ s < numSpec,
        Spec.brightness cube (i, j) ≤ Spec.brightness cube (pix s)) := by
  have hp : ∀ s < numSpec, 0 < cube.p := by
    intro s hs
    have := hb.lt s hs
    rcases Nat.eq_zero_or_pos cube.p with h | h
    · rw [h, Nat.mul_zero] at this; omega
    · exact h
  have hlt : ∀ s < numSpec, bright s / cube.m < cube.m := by
    intro s hs
    rw [hsq]
    have := hb.lt s hs
    rw [hsq] at this
    exact Nat.div_lt_of_lt_mul this
  refine ⟨_, fun s => (bright s / cube.p, bright s % cube.p), spectraData_ok hk hlt, rfl, rfl, ?_, ?_, ?_⟩
  · intro s hs
    refine ⟨by rw [← hsq]; exact hlt s hs, Nat.mod_lt _ (hp s hs), fun v _ => ?_⟩
    simp only [hsq]
  · intro s hs t ht h
    apply hb.inj s hs t ht
    simp only [Prod.mk.injEq] at h
    rw [← Nat.div_add_mod (bright s) cube.p, ← Nat.div_add_mod (bright t) cube.p, h.1, h.2]
  · intro i hi j hj h s hs
    have hne : ∀ t < numSpec, bright t ≠ i * cube.p + j := by
      intro t ht e
      apply h t ht
      simp only [e]
      rw [Prod.mk.injEq]
      constructor
      · rw [Nat.add_comm, Nat.add_mul_div_right _ _ (by omega), Nat.div_eq_of_lt hj, Nat.zero_add]
      · rw [Nat.add_comm, Nat.add_mul_mod_self_right, Nat.mod_eq_of_lt hj]
    have hb2 : i * cube.p + j < cube.m * cube.p := by
      calc i * cube.p + j < i * cube.p + cube.p := by omega
        _ = (i + 1) * cube.p := by ring
        _ ≤ cube.m * cube.p := Nat.mul_le_mul_right _ hi
    have := hb.top s hs _ hb2 hne
    unfold skyBrightness Arr3.nansum0 at this
    simp only at this
    rw [Nat.add_comm, Nat.add_mul_div_right _ _ (by omega), Nat.div_eq_of_lt hj, Nat.zero_add,
      Nat.add_mul_mod_self_right, Nat.mod_eq_of_lt hj] at this
    exact this

/-- Violation: on a map with more columns than rows, asking for all spectra raises IndexError. -/
theorem C31_wide_raises (cube : Arr3 (Option ℝ)) (h0 : 0 < cube.m) (h : cube.m < cube.p) (bright : ℕ → ℕ)
    (hb : Argpart (cube.m * cube.p) (skyBrightness cube) (cube.m * cube.p) bright) :
    spectraData cube (cube.m * cube.p) bright = .error .indexError := by
  unfold spectraData
  rw [if_neg (lt_irrefl _), if_neg]
  intro hall
  -- some position holds the last flat index
  have hsurj : ∃ s < cube.m * cube.p, bright s = cube.m * cube.p - 1 := by
    have himg : (range (cube.m * cube.p)).image bright = range (cube.m * cube.p) := by
      apply eq_of_subset_of_card_le
      · intro x hx
        obtain ⟨s, hs, rfl⟩ := mem_image.1 hx
        exact mem_range.2 (hb.lt s (mem_range.1 hs))
      · rw [card_image_of_injOn]
        intro s hs t ht e
        exact hb.inj s (by simpa using hs) t (by simpa using ht) e
    have hpos : 0 < cube.m * cube.p := Nat.mul_pos h0 (by omega)
    have hmem : cube.m * cube.p - 1 ∈ (range (cube.m * cube.p)).image bright := by
      rw [himg]; exact mem_range.2 (by omega)
    obtain ⟨s, hs, e⟩ := mem_image.1 hmem
    exact ⟨s, mem_range.1 hs, e⟩
  obtain ⟨s, hs, e⟩ := hsurj
  have := hall s hs
  rw [e, Nat.div_lt_iff_lt_mul h0] at this
  have h2 : cube.m * cube.m + cube.m ≤ cube.m * cube.p := by
    calc cube.m * cube.m + cube.m = cube.m * (cube.m + 1) := by ring
      _ ≤ cube.m * cube.p := Nat.mul_le_mul_left _ h
  omega

/-- Violation: on a map with more rows than columns, asking for all spectra never returns any sky pixel
of the last row (here for cubes whose sky pixels have pairwise different spectra). -/
theorem C31_tall_misses (cube : Arr3 (Option ℝ)) (h0 : 0 < cube.p) (h : cube.p < cube.m) (bright : ℕ → ℕ)
    (hb : Argpart (cube.m * cube.p) (skyBrightness cube) (cube.m * cube.p) bright)
    (hdist : ∀ i < cube.m, ∀ j < cube.p, ∀ i' < cube.m, ∀ j' < cube.p,
      (∀ v < cube.n, cube.get v i j = cube.get v i' j') → i = i' ∧ j = j') :
    ∃ out, spectraData cube (cube.m * cube.p) bright = .ok out ∧
      ∀ s < out.m, ∀ j < cube.p, ¬ Spec.IsSpectrumOf cube out s (cube.m - 1, j) := by
  have hlt : ∀ s < cube.m * cube.p, bright s / cube.m < cube.p := by
    intro s hs
    exact Nat.div_lt_of_lt_mul (hb.lt s hs)
  refine ⟨_, spectraData_ok le_rfl (fun s hs => (hlt s hs).trans h), ?_⟩
  intro s hs j hj hsp
  have h1 := hlt s hs
  have := hdist (bright s / cube.m) (by omega) (bright s % cube.p) (Nat.mod_lt _ h0) (cube.m - 1) (by omega) j hj
    (fun v hv => hsp.2.2 v hv)
  omega

/-- An unknown format is a NameError, and `spectra` without a number of spectra a ValueError. -/
theorem C31_format_checked (cube : Arr3 (Option ℝ)) (fmt : String) (k : Option ℕ) (bright : ℕ → ℕ)
    (noise : Option ℝ) (p : ℝ) (nrm : Bool) :
    (fmt ≠ "spectra" → fmt ≠ "intensity" → formatData cube fmt k bright noise p nrm = .error .nameError) ∧
    formatData cube "spectra" none bright noise p nrm = .error .valueError := by
  constructor
  · intro h1 h2
    unfold formatData
    rw [if_neg h1, if_neg h2]; rfl
  · unfold formatData
    rw [if_pos rfl]; rfl

/-! ### Normalisation -/

private theorem specNorm_bdd (a : Arr2 ℝ) :
    BddAbove {r | ∃ v : ℕ → ℝ, (∑ j ∈ range a.m, v j ^ 2) ≤ 1 ∧
      r = Real.sqrt (∑ i ∈ range a.n, (∑ j ∈ range a.m, a.get i j * v j) ^ 2)} := by
  refine ⟨Real.sqrt (∑ i ∈ range a.n, ∑ j ∈ range a.m, a.get i j ^ 2), ?_⟩
  rintro r ⟨v, hv, rfl⟩
  refine Real.sqrt_le_sqrt (sum_le_sum (fun i _ => ?_))
  have hcs := sum_mul_sq_le_sq_mul_sq (range a.m) (a.get i) v
  have h0 : 0 ≤ ∑ j ∈ range a.m, a.get i j ^ 2 := sum_nonneg (fun _ _ => sq_nonneg _)
  nlinarith

private theorem specNorm_pos {a : Arr2 ℝ} {i j : ℕ} (hi : i < a.n) (hj : j < a.m) (h : a.get i j ≠ 0) :
    0 < specNorm a := by
  have hmem : Real.sqrt (∑ i ∈ range a.n, (∑ k ∈ range a.m, a.get i k * (if k = j then 1 else 0)) ^ 2) ∈
      {r | ∃ v : ℕ → ℝ, (∑ j ∈ range a.m, v j ^ 2) ≤ 1 ∧
        r = Real.sqrt (∑ i ∈ range a.n, (∑ j ∈ range a.m, a.get i j * v j) ^ 2)} := by
    refine ⟨fun k => if k = j then 1 else 0, ?_, rfl⟩
    simp [hj]
  refine lt_of_lt_of_le ?_ (le_csSup (specNorm_bdd a) hmem)
  apply Real.sqrt_pos.2
  have hs : ∀ i, ∑ k ∈ range a.m, a.get i k * (if k = j then 1 else 0) = a.get i j := by
    intro i
    simp [hj]
  simp only [hs]
  exact lt_of_lt_of_le (by positivity) (single_le_sum (fun i _ => sq_nonneg (a.get i j)) (mem_range.2 hi))

private theorem specNorm_smul (a : Arr2 ℝ) {c : ℝ} (hc : 0 ≤ c) :
    specNorm (a.map (fun v => c * v)) = c * specNorm a := by
  unfold specNorm
  rw [← smul_eq_mul, ← Real.sSup_smul_of_nonneg hc]
  congr 1
  have key : ∀ v : ℕ → ℝ,
      Real.sqrt (∑ i ∈ range a.n, (∑ j ∈ range a.m, c * a.get i j * v j) ^ 2) =
      c * Real.sqrt (∑ i ∈ range a.n, (∑ j ∈ range a.m, a.get i j * v j) ^ 2) := by
    intro v
    have : ∑ i ∈ range a.n, (∑ j ∈ range a.m, c * a.get i j * v j) ^ 2 =
        c ^ 2 * ∑ i ∈ range a.n, (∑ j ∈ range a.m, a.get i j * v j) ^ 2 := by
      rw [mul_sum]
      refine sum_congr rfl (fun i _ => ?_)
      rw [← mul_pow, mul_sum]
      congr 1
      exact sum_congr rfl (fun j _ => by ring)
    rw [this, Real.sqrt_mul (sq_nonneg c), Real.sqrt_sq hc]
  ext r
  simp only [Set.mem_setOf_eq, Set.mem_smul_set, smul_eq_mul, Arr2.map]
  constructor
  · rintro ⟨v, hv, rfl⟩
    exact ⟨_, ⟨v, hv, rfl⟩, (key v).symm⟩
  · rintro ⟨_, ⟨v, hv, rfl⟩, rfl⟩
    exact ⟨v, hv, (key v).symm⟩

/-- `‖a v‖ ≤ c ‖v‖` for every vector, with `c` attained or approached: `c` is the operator 2-norm. -/
def Spec.IsOpNorm (n m : ℕ) (a : ℕ → ℕ → ℝ) (c : ℝ) : Prop :=
  IsLUB {r | ∃ v : ℕ → ℝ, (∑ j ∈ range m, v j ^ 2) ≤ 1 ∧
    r = Real.sqrt (∑ i ∈ range n, (∑ j ∈ range m, a i j * v j) ^ 2)} c

private theorem specNorm_isOpNorm (a : Arr2 ℝ) : Spec.IsOpNorm a.n a.m a.get (specNorm a) :=
  isLUB_csSup ⟨_, fun _ => 0, by simp, rfl⟩ (specNorm_bdd a)

/-- Normalising a matrix: an empty one is a ValueError, one with a missing value a LinAlgError; any
other one with a nonzero entry is divided by a positive number, and the result has 2-norm 1. -/
theorem C31_normalize (a : Arr2 (Option ℝ)) :
    ((a.n = 0 ∨ a.m = 0) → normalizeMatrix a = .error .valueError) ∧
    (∀ i j, i < a.n → j < a.m → a.get i j = none → normalizeMatrix a = .error .linAlgError) ∧
    (∀ x : ℕ → ℕ → ℝ, (∀ i < a.n, ∀ j < a.m, a.get i j = some (x i j)) →
      (∃ i < a.n, ∃ j < a.m, x i j ≠ 0) →
      ∃ out, ∃ y : ℕ → ℕ → ℝ, ∃ c : ℝ, 0 < c ∧ normalizeMatrix a = .ok out ∧ out.n = a.n ∧ out.m = a.m ∧
        (∀ i < a.n, ∀ j < a.m, out.get i j = some (y i j) ∧ x i j = c * y i j) ∧
        Spec.IsOpNorm a.n a.m x c ∧ Spec.IsOpNorm a.n a.m y 1) := by
  refine ⟨fun h => ?_, fun i j hi hj h => ?_, fun x hx hne => ?_⟩
  · unfold normalizeMatrix; rw [if_pos h]
  · unfold normalizeMatrix
    rw [if_neg (by omega), if_pos ⟨i, hi, j, hj, h⟩]
  · obtain ⟨i, hi, j, hj, h⟩ := hne
    set b : Arr2 ℝ := a.map (fun v => v.getD 0) with hb
    have hbg : ∀ i < a.n, ∀ j < a.m, b.get i j = x i j := by
      intro i hi j hj
      simp [hb, Arr2.map, hx i hi j hj]
    have hpos : 0 < specNorm b := specNorm_pos (a := b) hi hj (by rw [hbg i hi j hj]; exact h)
    have congrNorm : ∀ (y z : ℕ → ℕ → ℝ) (c : ℝ), (∀ i < a.n, ∀ j < a.m, y i j = z i j) →
        Spec.IsOpNorm a.n a.m y c → Spec.IsOpNorm a.n a.m z c := by
      intro y z c hyz hy
      have : ∀ v : ℕ → ℝ, (∑ i ∈ range a.n, (∑ j ∈ range a.m, y i j * v j) ^ 2) =
          ∑ i ∈ range a.n, (∑ j ∈ range a.m, z i j * v j) ^ 2 := by
        intro v
        refine sum_congr rfl (fun i hi => ?_)
        congr 1
        exact sum_congr rfl (fun j hj => by rw [hyz i (mem_range.1 hi) j (mem_range.1 hj)])
      unfold Spec.IsOpNorm at hy ⊢
      simpa only [this] using hy
    refine ⟨a.map (fun v => divO v (some (specNorm b))), (b.map (fun v => (specNorm b)⁻¹ * v)).get, specNorm b,
      hpos, ?_, rfl, rfl, ?_, ?_, ?_⟩
    · unfold normalizeMatrix
      rw [if_neg (by omega), if_neg]
      rintro ⟨i, hi, j, hj, h⟩
      rw [hx i hi j hj] at h
      cases h
    · intro i hi j hj
      have e : (b.map (fun v => (specNorm b)⁻¹ * v)).get i j = (specNorm b)⁻¹ * x i j := by
        simp only [Arr2.map] at hbg ⊢
        rw [← hbg i hi j hj]
      rw [e]
      constructor
      · simp only [Arr2.map, hx i hi j hj]
        simp [divO, hpos.ne', div_eq_inv_mul]
      · field_simp
    · exact congrNorm b.get x _ hbg (specNorm_isOpNorm b)
    · have := specNorm_isOpNorm (b.map (fun v => (specNorm b)⁻¹ * v))
      rwa [specNorm_smul b (inv_nonneg.2 hpos.le), inv_mul_cancel₀ hpos.ne'] at this

/-- A 1×1 matrix with entry 2 meets the hypotheses. -/
example : ∃ x : ℕ → ℕ → ℝ, (∀ i < 1, ∀ j < 1, (⟨1, 1, fun _ _ => some 2⟩ : Arr2 (Option ℝ)).get i j = some (x i j)) ∧
    ∃ i < 1, ∃ j < 1, x i j ≠ 0 :=
  ⟨fun _ _ => 2, fun _ _ _ _ => rfl, 0, by norm_num, 0, by norm_num, by norm_num⟩

/-- The hypotheses are met: a 2×2 map with all four pixels selected, and a 2×1 map. -/
example : Argpart 4 (fun b => (b : ℝ)) 4 (fun s => 3 - s) :=
  ⟨fun s _ => by omega, fun s hs t ht h => by omega, fun s hs b hb h => absurd (show 3 - (3 - b) = b by omega)
    (h (3 - b) (by omega))⟩

example : let cube : Arr3 (Option ℝ) := ⟨1, 2, 1, fun _ i _ => some (i : ℝ)⟩
    0 < cube.p ∧ cube.p < cube.m ∧ ∀ i < cube.m, ∀ j < cube.p, ∀ i' < cube.m, ∀ j' < cube.p,
      (∀ v < cube.n, cube.get v i j = cube.get v i' j') → i = i' ∧ j = j' := by
  refine ⟨by norm_num, by norm_num, fun i _ j hj i' _ j' hj' h => ?_⟩
  have := h 0 (by norm_num)
  simp only [Option.some.injEq, Nat.cast_inj] at this
  simp only at hj hj'
  exact ⟨this, by omega⟩

end TS
