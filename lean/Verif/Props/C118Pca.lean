import Verif.Props.C118
import Verif.Props.C62

/-! C118, continued: the autocorrelation images of PCA and the position and orientation of the map. -/

namespace TS
open Finset

/-- The autocorrelation image of an eigenimage, from which the spatial width is fitted, does not depend on a periodic shift of the map as long as the
value in the first pixel is 0 before and after the shift. Missing: other values there (`C118_pca_autocorrelation_violated`). -/
theorem C118_pca_autocorrelation_partial (img : Arr2 ℝ) (s : ℤ) (h0 : img.get 0 0 = 0) (h1 : (img.roll0 s).get 0 0 = 0) (r c : ℕ) (hr : r < img.n)
    (hc : c < img.m) : (acorImage (img.roll0 s)).get r c = (acorImage img).get r c := by
  have hn : 0 < img.n := by omega
  have plain : ∀ z : ℕ → ℕ → ℝ, z 0 0 = 0 → Spec.cornerless z = z := by
    intro z hz
    funext i j
    unfold Spec.cornerless
    split_ifs with h
    · rw [h.1, h.2, hz]
    · rfl
  rw [C62_image_partial (img.roll0 s) r c hr hc, C62_image_partial img r c hr hc, plain _ h0, plain _ h1]
  show Spec.circAcf img.n img.m (fun i j => img.get (rollIx img.n s i) j) ((r : ℤ) - (img.n / 2 : ℕ)) ((c : ℤ) - (img.m / 2 : ℕ)) = _
  unfold Spec.circAcf
  refine Eq.trans ?_ (sum_rollIx hn s _)
  refine sum_congr rfl fun b _ => sum_congr rfl fun d _ => ?_
  have e : rollIx img.n s (((b : ℤ) + ((r : ℤ) - (img.n / 2 : ℕ))) % img.n).toNat =
      (((rollIx img.n s b : ℕ) + ((r : ℤ) - (img.n / 2 : ℕ))) % img.n).toNat := by
    have h1 := Int.emod_nonneg ((b : ℤ) + ((r : ℤ) - (img.n / 2 : ℕ))) (by omega : (img.n : ℤ) ≠ 0)
    rw [rollIx_cast hn, Int.emod_add_emod]
    unfold rollIx
    rw [Int.toNat_of_nonneg h1, Int.emod_sub_emod]
    congr 2
    ring
  beta_reduce
  rw [e]

/-- The peak of the autocorrelation image is the sum of the squares of all pixels but the first. -/
private theorem peak (img : Arr2 ℝ) (hn : 0 < img.n) (hm : 0 < img.m) : (acorImage img).get (img.n / 2) (img.m / 2) =
    ∑ b ∈ range img.n, ∑ c ∈ range img.m, Spec.cornerless img.get b c ^ 2 := by
  rw [C62_image_partial img _ _ (by omega) (by omega), sub_self, sub_self]
  unfold Spec.circAcf
  refine sum_congr rfl fun b hb => sum_congr rfl fun c hc => ?_
  rw [add_zero, add_zero, Int.emod_eq_of_lt (by omega) (by exact_mod_cast mem_range.1 hb), Int.emod_eq_of_lt (by omega) (by exact_mod_cast mem_range.1 hc)]
  simp only [Int.toNat_natCast]
  ring

/-- VIOLATION: the autocorrelation image depends on the position and orientation of the map. An eigenimage of two pixels, 1 and 0: the peak of the
autocorrelation is 0, and 1 when the image is mirrored or shifted by one pixel. -/
theorem C118_pca_autocorrelation_violated : ∃ img : Arr2 ℝ, 
    (acorImage img).get (img.n / 2) (img.m / 2) = 0 ∧ (acorImage (Spec.moved [.mirror] img)).get (img.n / 2) (img.m / 2) = 1 ∧
    (acorImage (Spec.moved [.roll 1] img)).get (img.n / 2) (img.m / 2) = 1 := by
  refine ⟨⟨2, 1, fun i _ => if i = 0 then 1 else 0⟩, ?_, ?_, ?_⟩
  · rw [peak _ (by norm_num) (by norm_num)]
    simp [sum_range_succ, Spec.cornerless]
  · refine (peak (Spec.moved [.mirror] ⟨2, 1, fun i _ => if i = 0 then 1 else 0⟩) (by norm_num [Spec.moved, DvMove.on, Spec.mirror0])
      (by norm_num [Spec.moved, DvMove.on, Spec.mirror0])).trans ?_
    simp [sum_range_succ, Spec.cornerless, Spec.moved, DvMove.on, Spec.mirror0]
  · refine (peak (Spec.moved [.roll 1] ⟨2, 1, fun i _ => if i = 0 then 1 else 0⟩) (by norm_num [Spec.moved, DvMove.on, Arr2.roll0])
      (by norm_num [Spec.moved, DvMove.on, Arr2.roll0])).trans ?_
    simp [sum_range_succ, Spec.cornerless, Spec.moved, DvMove.on, Arr2.roll0, rollIx]

/-- A case that meets the hypotheses: three rows with the value 5 in the second, shifted by one. -/
example : let img : Arr2 ℝ := ⟨3, 1, fun i _ => if i = 1 then 5 else 0⟩
    img.get 0 0 = 0 ∧ (img.roll0 1).get 0 0 = 0 ∧ (img.roll0 1).get 2 0 = 5 := by
  simp [Arr2.roll0, rollIx]

end TS
