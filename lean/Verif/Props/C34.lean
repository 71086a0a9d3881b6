import Verif.Props.C62

/-! C34 — the noise autocorrelation function of PCA. -/

namespace TS
open Finset

namespace Spec

/-- Indices of the last `k` eigenvalues that are at or above the precision limit (all of them when there
are fewer). -/
noncomputable def lastValid (eps : ℝ) (e : List ℝ) (k : ℕ) : List ℕ :=
  (((List.range e.length).filter (fun q => decide (eps ≤ e.getD q 0))).reverse.take k).reverse

/-- Mean of the autocorrelation images of the eigenimages of the given components, at a pixel. -/
noncomputable def meanAcf (cube : Arr3 (Option ℝ)) (st : PcaState) (ix : List ℕ) (r c : ℕ) : ℝ :=
  (ix.map (fun q => (acorImage (eigImage st.meanSub cube (fun a => st.eigvecs a q))).get r c)).sum / ix.length

end Spec

private theorem acors_ok {imgs : List (Arr2 ℝ)} (h : 2 ≤ imgs.length) :
    autocorrImages imgs = .ok (imgs.map acorImage) := by
  match imgs, h with
  | _ :: _ :: _, _ => rfl

private theorem lastValid_eq (eps : ℝ) (e : List ℝ) (k : ℕ) :
    (validEigs eps e).drop ((validEigs eps e).length - k) = Spec.lastValid eps e k := by
  unfold Spec.lastValid validEigs
  rw [List.take_reverse, List.reverse_reverse]

private theorem noise_value (eps : ℝ) (cube : Arr3 (Option ℝ)) (st : PcaState) (k : ℤ) (ix : List ℕ)
    (hix : eigIndices eps st.eigvals k = .ok ix) (h2 : 2 ≤ ix.length) :
    ∃ out, noiseAcf eps cube st k = .ok out ∧
      ∀ r c, out.get r c = (ix.length / (k : ℝ)) * Spec.meanAcf cube st ix r c := by
  unfold noiseAcf
  rw [hix]
  simp only [bind, Except.bind, pure, Except.pure]
  rw [acors_ok (by simpa using h2)]
  refine ⟨_, rfl, ?_⟩
  intro r c
  simp only [List.map_map, Spec.meanAcf]
  have : (ix.length : ℝ) ≠ 0 := by
    have : 0 < ix.length := by omega
    positivity
  rw [div_mul_div_comm, mul_comm (k : ℝ), mul_div_mul_left _ _ this]
  rfl

/-- For the last `k` components the returned array is *minus* the documented mean. -/
theorem C34_sign_flipped (eps : ℝ) (cube : Arr3 (Option ℝ)) (st : PcaState) (k : ℕ) (h2 : 2 ≤ k)
    (hk : (Spec.lastValid eps st.eigvals k).length = k) :
    ∃ out, noiseAcf eps cube st (-(k : ℤ)) = .ok out ∧
      ∀ r c, out.get r c = - Spec.meanAcf cube st (Spec.lastValid eps st.eigvals k) r c := by
  have hix : eigIndices eps st.eigvals (-(k : ℤ)) = .ok (Spec.lastValid eps st.eigvals k) := by
    unfold eigIndices
    rw [if_neg (by omega), if_pos (by omega)]
    simp only [neg_neg, Int.toNat_natCast, lastValid_eq]
  obtain ⟨out, h, hv⟩ := noise_value eps cube st _ _ hix (by omega)
  refine ⟨out, h, ?_⟩
  intro r c
  have hk0 : (k : ℝ) ≠ 0 := by
    have : 0 < k := by omega
    positivity
  rw [hv, hk]
  push_cast
  rw [div_neg, div_self hk0, neg_one_mul]

/-- So the claim fails for every decomposition whose noise components are not blank: at lag 0 the
returned value is at most zero, and differs from the mean unless that is zero. -/
theorem C34_violated (eps : ℝ) (cube : Arr3 (Option ℝ)) (hm : 0 < cube.m) (hp : 0 < cube.p) (st : PcaState)
    (k : ℕ) (h2 : 2 ≤ k) (hk : (Spec.lastValid eps st.eigvals k).length = k) :
    ∃ out, noiseAcf eps cube st (-(k : ℤ)) = .ok out ∧ out.get (cube.m / 2) (cube.p / 2) ≤ 0 ∧
      (out.get (cube.m / 2) (cube.p / 2) =
          Spec.meanAcf cube st (Spec.lastValid eps st.eigvals k) (cube.m / 2) (cube.p / 2) ↔
        Spec.meanAcf cube st (Spec.lastValid eps st.eigvals k) (cube.m / 2) (cube.p / 2) = 0) := by
  obtain ⟨out, h, hv⟩ := C34_sign_flipped eps cube st k h2 hk
  refine ⟨out, h, ?_, ?_⟩
  · rw [hv, neg_nonpos]
    unfold Spec.meanAcf
    apply div_nonneg _ (Nat.cast_nonneg _)
    apply List.sum_nonneg
    intro x hx
    obtain ⟨q, _, rfl⟩ := List.mem_map.1 hx
    exact (C62_image_shape (eigImage st.meanSub cube (fun a => st.eigvecs a q)) 0 0 hm hp).2.1
  · rw [hv]
    constructor
    · intro h; linarith
    · intro h; rw [h]; norm_num

/-- With fewer valid components than asked for, the divisor is still the number asked for. -/
theorem C34_too_few (eps : ℝ) (cube : Arr3 (Option ℝ)) (st : PcaState) (k : ℕ) (hk : 0 < k)
    (h2 : 2 ≤ (Spec.lastValid eps st.eigvals k).length) :
    ∃ out, noiseAcf eps cube st (-(k : ℤ)) = .ok out ∧
      ∀ r c, out.get r c = -((Spec.lastValid eps st.eigvals k).length / (k : ℝ)) *
        Spec.meanAcf cube st (Spec.lastValid eps st.eigvals k) r c := by
  have hix : eigIndices eps st.eigvals (-(k : ℤ)) = .ok (Spec.lastValid eps st.eigvals k) := by
    unfold eigIndices
    rw [if_neg (by omega), if_pos (by omega)]
    simp only [neg_neg, Int.toNat_natCast, lastValid_eq]
  obtain ⟨out, h, hv⟩ := noise_value eps cube st _ _ hix h2
  refine ⟨out, h, ?_⟩
  intro r c
  rw [hv]; push_cast; rw [div_neg]

/-- For a positive number the mean over the first components is returned, as it should be.  Missing for
the full property: negative numbers, where the sign is wrong. -/
theorem C34_mean_partial (eps : ℝ) (cube : Arr3 (Option ℝ)) (st : PcaState) (k : ℕ) (h2 : 2 ≤ k)
    (hk : k ≤ st.eigvals.length) :
    ∃ out, noiseAcf eps cube st k = .ok out ∧
      ∀ r c, out.get r c = Spec.meanAcf cube st (List.range k) r c := by
  have hix : eigIndices eps st.eigvals (k : ℤ) = .ok (List.range k) := by
    unfold eigIndices
    rw [if_pos (by omega), if_neg (by simp; omega)]
    simp
  obtain ⟨out, h, hv⟩ := noise_value eps cube st _ _ hix (by simpa using h2)
  refine ⟨out, h, ?_⟩
  intro r c
  have hk0 : (k : ℝ) ≠ 0 := by
    have : 0 < k := by omega
    positivity
  rw [hv, List.length_range, Int.cast_natCast, div_self hk0, one_mul]

/-- A single component (and none) cannot be imaged at all. -/
theorem C34_one_fails (eps : ℝ) (cube : Arr3 (Option ℝ)) (st : PcaState) (he : st.eigvals ≠ []) :
    noiseAcf eps cube st 1 = .error .indexError ∧ noiseAcf eps cube st 0 = .error .unboundLocal := by
  constructor
  · unfold noiseAcf eigIndices
    have : ¬ st.eigvals.length < 1 := by
      have := List.length_pos_iff.2 he
      omega
    simp [this, bind, Except.bind, autocorrImages, List.range_succ]
  · unfold noiseAcf eigIndices
    simp [bind, Except.bind]

/-- Non-vacuity: a cube of three channels with valid components, the last two used. -/
example : (Spec.lastValid 0.1 [3, 2, 1] 2).length = 2 ∧ Spec.lastValid 0.1 [3, 2, 1] 2 = [1, 2] := by
  have : Spec.lastValid 0.1 [3, 2, 1] 2 = [1, 2] := by
    unfold Spec.lastValid
    have : (List.range [(3 : ℝ), 2, 1].length).filter (fun q => decide ((0.1 : ℝ) ≤ [(3 : ℝ), 2, 1].getD q 0)) =
        [0, 1, 2] := by
      simp [List.range_succ, List.filter]
      norm_num
    rw [this]; rfl
  exact ⟨by rw [this]; rfl, this⟩

end TS
