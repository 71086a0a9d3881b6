import Verif.Props.C122
import Verif.Props.C41
import Verif.Props.C04
import Verif.Props.C25
import Verif.Model.ThreeDToTwoD

/-! C122: rows and columns of missing pixels around a map or cube. Tsallis increments and cubes. -/

namespace TS
open Finset

namespace Spec

/-- The cube with rows and columns of missing spectra around it. -/
def framedCube (t b l r : ℕ) (a : Arr3 (Option ℝ)) : Arr3 (Option ℝ) :=
  ⟨a.n, t + a.m + b, l + a.p + r, fun v i j => if t ≤ i ∧ i < t + a.m ∧ l ≤ j ∧ j < l + a.p then a.get v (i - t) (j - l) else none⟩

end Spec

/-- A sum over a padded range, nothing being added outside. -/
theorem sum_frame {M : Type} [AddCommMonoid M] (t n b : ℕ) (f : ℕ → M) (h : ∀ i < t + n + b, ¬(t ≤ i ∧ i < t + n) → f i = 0) :
    ∑ i ∈ range (t + n + b), f i = ∑ i ∈ range n, f (t + i) := by
  rw [sum_range_add, sum_range_add, sum_eq_zero (s := range t), sum_eq_zero (s := range b), zero_add, add_zero]
  · intro i hi
    have := mem_range.1 hi
    exact h _ (by omega) (by omega)
  · intro i hi
    have := mem_range.1 hi
    exact h _ (by omega) (by omega)

/-- A sum over the pixels of a frame, nothing being added outside of the map. -/
theorem sum_frame2 {M : Type} [AddCommMonoid M] (t n b l m r : ℕ) (f : ℕ → ℕ → M)
    (h : ∀ i < t + n + b, ∀ j < l + m + r, ¬(t ≤ i ∧ i < t + n ∧ l ≤ j ∧ j < l + m) → f i j = 0) :
    ∑ i ∈ range (t + n + b), ∑ j ∈ range (l + m + r), f i j = ∑ i ∈ range n, ∑ j ∈ range m, f (t + i) (l + j) := by
  rw [sum_frame t n b]
  · refine sum_congr rfl fun i hi => sum_frame l m r _ fun j hj ho => ?_
    have := mem_range.1 hi
    exact h _ (by omega) j hj (by omega)
  · intro i hi ho
    exact sum_eq_zero fun j hj => h i hi j (mem_range.1 hj) (by omega)

/-! ### Tsallis -/

private theorem nFinite_framed (t b l r : ℕ) (a : Arr2 (Option ℝ)) : (Spec.framed t b l r a).nFinite = a.nFinite := by
  unfold Arr2.nFinite
  refine (sum_frame2 t a.n b l a.m r _ fun i _ j _ h => ?_).trans (sum_congr rfl fun i hi => sum_congr rfl fun j hj => ?_)
  · rw [framed_out t b l r a h]
    rfl
  · rw [framed_in t b l r a (mem_range.1 hi) (mem_range.1 hj)]

private theorem increment_none (z : ℤ → ℤ → Option ℝ) (lag i j : ℤ) (h : z i j = none) : Spec.increment z lag i j = none := by
  unfold Spec.increment
  rw [h]
  cases z (i - lag) j <;> cases z (i + lag) j <;> cases z i (j - lag) <;> cases z i (j + lag) <;> rfl

private theorem validVals_standardize (x : List (Option ℝ)) :
    validVals (standardize x) = (validVals x).filterMap fun v => divO (subO (some v) (meanO (validVals x))) ((varO (validVals x)).map Real.sqrt) := by
  have h : ∀ g : Option ℝ → Option ℝ, g none = none → (x.map g).filterMap id = (x.filterMap id).filterMap fun v => g (some v) := by
    intro g hg
    rw [List.filterMap_map, List.filterMap_filterMap]
    refine List.filterMap_congr fun v _ => ?_
    cases v
    · exact hg
    · rfl
  refine h (fun v => divO (subO v (nanmean x)) (nanstd x)) ?_
  rfl

/-- The increments of an image in a frame at least as wide as the lag. -/
private theorem increments_framed (junk : ℕ → ℕ → Option ℝ) (periodic : Bool) (lag : ℕ) (hl : 0 < lag) (img : Arr2 (Option ℝ)) (t b l r : ℕ)
    (ht : lag ≤ t) (hb : lag ≤ b) (hle : lag ≤ l) (hr : lag ≤ r) :
    validVals (tsallisMap junk periodic lag (Spec.framed t b l r img)).ravel =
      validVals (⟨img.n, img.m, fun i j => Spec.increment (Spec.nanExt img) lag i j⟩ : Arr2 (Option ℝ)).ravel := by
  obtain ⟨z, hz, hn, hm, hg⟩ : ∃ z : ℤ → ℤ → Option ℝ,
      (∀ i j : ℤ, 0 ≤ i → i < (t + img.n + b : ℕ) → 0 ≤ j → j < (l + img.m + r : ℕ) → z i j = Spec.nanExt img (i - t) (j - l)) ∧
      (tsallisMap junk periodic lag (Spec.framed t b l r img)).n = t + img.n + b ∧ (tsallisMap junk periodic lag (Spec.framed t b l r img)).m = l + img.m + r ∧
      ∀ i < t + img.n + b, ∀ j < l + img.m + r, (tsallisMap junk periodic lag (Spec.framed t b l r img)).get i j = Spec.increment z lag i j := by
    have base : ∀ i j : ℤ, 0 ≤ i → i < (t + img.n + b : ℕ) → 0 ≤ j → j < (l + img.m + r : ℕ) →
        (Spec.framed t b l r img).get i.toNat j.toNat = Spec.nanExt img (i - t) (j - l) := by
      intro i j h1 h2 h3 h4
      rw [← framed_nanExt t b l r img i j]
      exact (if_pos ⟨h1, h2, h3, h4⟩).symm
    cases periodic with
    | true =>
      obtain ⟨a1, a2, a3⟩ := C41_periodic junk lag (Spec.framed t b l r img)
      refine ⟨_, fun i j h1 h2 h3 h4 => ?_, a1, a2, a3⟩
      show (Spec.framed t b l r img).get (i % ((t + img.n + b : ℕ) : ℤ)).toNat (j % ((l + img.m + r : ℕ) : ℤ)).toNat = _
      rw [Int.emod_eq_of_lt h1 h2, Int.emod_eq_of_lt h3 h4, base i j h1 h2 h3 h4]
    | false =>
      obtain ⟨a1, a2, a3⟩ := C41_zero_padded junk lag hl (Spec.framed t b l r img)
      refine ⟨_, fun i j h1 h2 h3 h4 => ?_, a1, a2, a3⟩
      unfold Spec.zeroExt
      rw [if_pos ⟨h1, h2, h3, h4⟩, base i j h1 h2 h3 h4]
  refine framed_ravel (a := ⟨img.n, img.m, fun i j => Spec.increment (Spec.nanExt img) lag i j⟩) (t := t) (b := b) (l := l) (r := r) hn hm id ?_ ?_
  · intro i hi j hj
    have hi : i < img.n := hi
    have hj : j < img.m := hj
    show (tsallisMap junk periodic lag (Spec.framed t b l r img)).get (t + i) (l + j) = Spec.increment (Spec.nanExt img) lag i j
    rw [hg (t + i) (by omega) (l + j) (by omega)]
    unfold Spec.increment
    rw [hz _ _ (by push_cast; omega) (by push_cast; omega) (by push_cast; omega) (by push_cast; omega),
      hz _ _ (by push_cast; omega) (by push_cast; omega) (by push_cast; omega) (by push_cast; omega),
      hz _ _ (by push_cast; omega) (by push_cast; omega) (by push_cast; omega) (by push_cast; omega),
      hz _ _ (by push_cast; omega) (by push_cast; omega) (by push_cast; omega) (by push_cast; omega),
      hz _ _ (by push_cast; omega) (by push_cast; omega) (by push_cast; omega) (by push_cast; omega)]
    rw [show ((t + i : ℕ) : ℤ) - lag - t = i - lag by push_cast; ring, show ((t + i : ℕ) : ℤ) + lag - t = i + lag by push_cast; ring,
      show ((l + j : ℕ) : ℤ) - lag - l = j - lag by push_cast; ring, show ((l + j : ℕ) : ℤ) + lag - l = j + lag by push_cast; ring,
      show ((t + i : ℕ) : ℤ) - t = i by push_cast; ring, show ((l + j : ℕ) : ℤ) - l = j by push_cast; ring]
  · intro i hi j hj ho
    rw [hn] at hi
    rw [hm] at hj
    show (tsallisMap junk periodic lag (Spec.framed t b l r img)).get i j = none
    rw [hg i hi j hj]
    refine increment_none _ _ _ _ ?_
    rw [hz i j (by omega) (by omega) (by omega) (by omega)]
    have ho : ¬(t ≤ i ∧ i < t + img.n ∧ l ≤ j ∧ j < l + img.m) := ho
    exact if_neg (by omega)

/-- **Tsallis (partial).** Once a frame is at least as wide as the lag, the distribution of the increments depends neither on the width of the frame nor on
the option `periodic`. Missing: the image without a frame, whose edge pixels have increments of their own, see `C122_tsallis_violated`. -/
theorem C122_tsallis_partial (junk junk' : ℕ → ℕ → Option ℝ) (periodic periodic' : Bool) (num : Option ℕ) (lag : ℕ) (hl : 0 < lag) (img : Arr2 (Option ℝ))
    (t b l r t' b' l' r' : ℕ) (h : lag ≤ t ∧ lag ≤ b ∧ lag ≤ l ∧ lag ≤ r) (h' : lag ≤ t' ∧ lag ≤ b' ∧ lag ≤ l' ∧ lag ≤ r') :
    (makeTsallisAt junk periodic num lag (Spec.framed t b l r img)).map Prod.snd =
    (makeTsallisAt junk' periodic' num lag (Spec.framed t' b' l' r' img)).map Prod.snd := by
  have e := (increments_framed junk periodic lag hl img t b l r h.1 h.2.1 h.2.2.1 h.2.2.2).trans
    (increments_framed junk' periodic' lag hl img t' b' l' r' h'.1 h'.2.1 h'.2.2.1 h'.2.2.2).symm
  have ed : validVals (standardize (tsallisMap junk periodic lag (Spec.framed t b l r img)).ravel) =
      validVals (standardize (tsallisMap junk' periodic' lag (Spec.framed t' b' l' r' img)).ravel) := by
    rw [validVals_standardize, validVals_standardize, e]
  have eb : tsallisBins num (Spec.framed t b l r img) = tsallisBins num (Spec.framed t' b' l' r' img) := by
    cases num with
    | some k => rfl
    | none => simp only [tsallisBins, nFinite_framed]
  have et : tsallisDist (tsallisBins num (Spec.framed t b l r img)) (standardize (tsallisMap junk periodic lag (Spec.framed t b l r img)).ravel) =
      tsallisDist (tsallisBins num (Spec.framed t' b' l' r' img)) (standardize (tsallisMap junk' periodic' lag (Spec.framed t' b' l' r' img)).ravel) := by
    unfold tsallisDist
    rw [ed, eb]
  unfold makeTsallisAt
  simp only [et]
  cases tsallisDist (tsallisBins num (Spec.framed t' b' l' r' img)) (standardize (tsallisMap junk' periodic' lag (Spec.framed t' b' l' r' img)).ravel) <;> rfl

/-- VIOLATION: without a frame the increments at the edges are taken against zeros. In a constant image of 2 × 2 pixels the increment at the corner is -2;
with one row and column of missing pixels around it, it is missing. -/
theorem C122_tsallis_violated (junk : ℕ → ℕ → Option ℝ) : ∃ img : Arr2 (Option ℝ),
    (tsallisMap junk false 1 img).get 0 0 = some (-2) ∧ (tsallisMap junk false 1 (Spec.framed 1 1 1 1 img)).get 1 1 = none := by
  refine ⟨⟨2, 2, fun _ _ => some 4⟩, ?_, ?_⟩
  · rw [(C41_zero_padded junk 1 (by norm_num) ⟨2, 2, fun _ _ => some 4⟩).2.2 0 (by norm_num) 0 (by norm_num)]
    norm_num [Spec.increment, Spec.zeroExt]
  · rw [(C41_zero_padded junk 1 (by norm_num) (Spec.framed 1 1 1 1 ⟨2, 2, fun _ _ => some 4⟩)).2.2 1 (by norm_num [Spec.framed]) 1 (by norm_num [Spec.framed])]
    norm_num [Spec.increment, Spec.zeroExt, Spec.framed]

/-! ### VCS -/

/-- The spectrum of a cube of positive values, with or without missing ones. -/
theorem vcs_positive (cube : Arr3 (Option ℝ)) (hn : 0 < cube.n) (hm : 0 < cube.m) (hp : 0 < cube.p)
    (hval : ∃ a < cube.n, ∃ i < cube.m, ∃ j < cube.p, cube.get a i j ≠ none) (hpos : ∀ a i j x, cube.get a i j = some x → 0 < x) :
    ∃ ps, vcsComputePspec cube = .ok ps ∧ ps.n = cube.n ∧ ∀ k < cube.n, ps.get k = some (cube.m * cube.p *
      (∑ i ∈ range cube.m, ∑ j ∈ range cube.p, Spec.specPower (fillNan3 0 cube) i j k) /
      ((∑ i ∈ range cube.m, ∑ j ∈ range cube.p, (open Classical in if ∃ a < cube.n, cube.get a i j ≠ none then 1 else 0) : ℕ) : ℝ)) := by
  classical
  have card : ((range cube.m ×ˢ range cube.p).filter (fun ij => ∃ a < cube.n, cube.get a ij.1 ij.2 ≠ none)).card =
      ∑ i ∈ range cube.m, ∑ j ∈ range cube.p, if ∃ a < cube.n, cube.get a i j ≠ none then 1 else 0 := by
    rw [card_filter, sum_product]
  by_cases hmiss : ∃ a < cube.n, ∃ i < cube.m, ∃ j < cube.p, cube.get a i j = none
  · obtain ⟨ps, h1, h2, h3⟩ := C04_vcs_missing_data_partial cube hn hm hp hmiss hval hpos
    refine ⟨ps, h1, h2, fun k hk => ?_⟩
    rw [h3 k hk, ← card]
  · push Not at hmiss
    obtain ⟨ps, h1, h2, h3⟩ := vcs_general cube hn hm hp
    refine ⟨ps, h1, h2, fun k hk => ?_⟩
    have hf : (vcsInit cube).1 = false := by
      simp only [vcsInit, decide_eq_false_iff_not, not_exists, not_and]
      exact fun a ha i hi j hj => hmiss a ha i hi j hj
    have hc : (∑ i ∈ range cube.m, ∑ j ∈ range cube.p, if ∃ a < cube.n, cube.get a i j ≠ none then 1 else 0) = cube.m * cube.p := by
      rw [sum_congr rfl fun i hi => sum_congr rfl fun j hj =>
        if_pos (⟨0, hn, hmiss 0 hn i (mem_range.1 hi) j (mem_range.1 hj)⟩ : ∃ a < cube.n, cube.get a i j ≠ none)]
      simp
    rw [h3 k hk, hf, hc]
    simp only [vcsGoodPixels, Bool.false_eq_true, if_false]
    have hmp : ((cube.m * cube.p : ℕ) : ℝ) ≠ 0 := by exact_mod_cast (Nat.mul_pos hm hp).ne'
    rw [show (fillNan3 0 cube).m = cube.m from rfl, show (fillNan3 0 cube).p = cube.p from rfl, divO_some hmp]

/-- **VCS.** For a cube of positive values, missing ones allowed, a frame of missing spectra multiplies the spectrum at all frequencies by the same number,
the ratio of the numbers of pixels: its shape is kept, its level is not. -/
theorem C122_vcs (cube : Arr3 (Option ℝ)) (hval : ∃ a < cube.n, ∃ i < cube.m, ∃ j < cube.p, cube.get a i j ≠ none)
    (hpos : ∀ a i j x, cube.get a i j = some x → 0 < x) (t b l r : ℕ) :
    ∃ ps ps', vcsComputePspec cube = .ok ps ∧ vcsComputePspec (Spec.framedCube t b l r cube) = .ok ps' ∧ ps.n = cube.n ∧ ps'.n = cube.n ∧
      ∀ k < cube.n, ∃ s, ps.get k = some s ∧
        ps'.get k = some (((t + cube.m + b : ℕ) : ℝ) * ((l + cube.p + r : ℕ) : ℝ) / ((cube.m : ℝ) * cube.p) * s) := by
  classical
  obtain ⟨a0, ha0, i0, hi0, j0, hj0, hne⟩ := hval
  have hm : (0 : ℝ) < cube.m := by exact_mod_cast (show 0 < cube.m by omega)
  have hp : (0 : ℝ) < cube.p := by exact_mod_cast (show 0 < cube.p by omega)
  have inn : ∀ a, ∀ i < cube.m, ∀ j < cube.p, (Spec.framedCube t b l r cube).get a (t + i) (l + j) = cube.get a i j := by
    intro a i hi j hj
    show (if _ then _ else _) = _
    rw [if_pos (by omega), Nat.add_sub_cancel_left, Nat.add_sub_cancel_left]
  have out : ∀ a i j, ¬(t ≤ i ∧ i < t + cube.m ∧ l ≤ j ∧ j < l + cube.p) → (Spec.framedCube t b l r cube).get a i j = none := fun a i j h => if_neg h
  obtain ⟨ps, h1, h2, h3⟩ := vcs_positive cube (by omega) (by omega) (by omega) ⟨a0, ha0, i0, hi0, j0, hj0, hne⟩ hpos
  obtain ⟨ps', g1, g2, g3⟩ := vcs_positive (Spec.framedCube t b l r cube) (show 0 < cube.n by omega) (show 0 < t + cube.m + b by omega)
    (show 0 < l + cube.p + r by omega)
    ⟨a0, ha0, t + i0, show t + i0 < t + cube.m + b by omega, l + j0, show l + j0 < l + cube.p + r by omega, by rw [inn a0 i0 hi0 j0 hj0]; exact hne⟩ (by
      intro a i j x hx
      by_cases h : t ≤ i ∧ i < t + cube.m ∧ l ≤ j ∧ j < l + cube.p
      · have := inn a (i - t) (by omega) (j - l) (by omega)
        rw [show t + (i - t) = i by omega, show l + (j - l) = j by omega] at this
        exact hpos a _ _ x (this.symm.trans hx)
      · rw [out a i j h] at hx
        cases hx)
  refine ⟨ps, ps', h1, g1, h2, g2, fun k hk => ⟨_, h3 k hk, ?_⟩⟩
  rw [g3 k hk]
  have eC : (∑ i ∈ range (Spec.framedCube t b l r cube).m, ∑ j ∈ range (Spec.framedCube t b l r cube).p,
      if ∃ a < (Spec.framedCube t b l r cube).n, (Spec.framedCube t b l r cube).get a i j ≠ none then 1 else 0) =
      ∑ i ∈ range cube.m, ∑ j ∈ range cube.p, if ∃ a < cube.n, cube.get a i j ≠ none then 1 else 0 := by
    refine (sum_frame2 t cube.m b l cube.p r _ fun i _ j _ h => ?_).trans (sum_congr rfl fun i hi => sum_congr rfl fun j hj => ?_)
    · rw [if_neg]
      rintro ⟨a, _, hx⟩
      exact hx (out a i j h)
    · simp only [inn _ i (mem_range.1 hi) j (mem_range.1 hj)]
      rfl
  have eP : (∑ i ∈ range (Spec.framedCube t b l r cube).m, ∑ j ∈ range (Spec.framedCube t b l r cube).p,
      Spec.specPower (fillNan3 0 (Spec.framedCube t b l r cube)) i j k) =
      ∑ i ∈ range cube.m, ∑ j ∈ range cube.p, Spec.specPower (fillNan3 0 cube) i j k := by
    refine (sum_frame2 t cube.m b l cube.p r _ fun i _ j _ h => ?_).trans (sum_congr rfl fun i hi => sum_congr rfl fun j hj => ?_)
    · have : ∀ c, Spec.losSpectrum (fillNan3 0 (Spec.framedCube t b l r cube)) i j c = 0 := by
        intro c
        show ((Spec.framedCube t b l r cube).get c i j).getD 0 = 0
        rw [out c i j h]
        rfl
      simp [Spec.specPower, this, dft1]
    · have : ∀ c, Spec.losSpectrum (fillNan3 0 (Spec.framedCube t b l r cube)) (t + i) (l + j) c = Spec.losSpectrum (fillNan3 0 cube) i j c := by
        intro c
        show ((Spec.framedCube t b l r cube).get c (t + i) (l + j)).getD 0 = (cube.get c i j).getD 0
        rw [inn c i (mem_range.1 hi) j (mem_range.1 hj)]
      unfold Spec.specPower
      simp only [this]
      rfl
  rw [eC, eP]
  show some (((t + cube.m + b : ℕ) : ℝ) * ((l + cube.p + r : ℕ) : ℝ) * _ / _) = _
  congr 1
  field_simp

/-- Hypotheses of `C122_vcs` are met: one spectrum with two channels, one of them missing. -/
example : (∃ a < 2, ∃ i < 1, ∃ j < 1, (⟨2, 1, 1, fun v _ _ => if v = 0 then some 3 else none⟩ : Arr3 (Option ℝ)).get a i j ≠ none) ∧
    ∀ a i j x, (⟨2, 1, 1, fun v _ _ => if v = 0 then some 3 else none⟩ : Arr3 (Option ℝ)).get a i j = some x → 0 < x := by
  refine ⟨⟨0, by norm_num, 0, by norm_num, 0, by norm_num, by simp⟩, ?_⟩
  intro a i j x h
  by_cases ha : a = 0
  · simp [ha] at h
    rw [← h]
    norm_num
  · simp [ha] at h

/-! ### PCA -/

theorem sum_flat {M : Type} [AddCommMonoid M] (m p : ℕ) (f : ℕ → ℕ → M) :
    ∑ k ∈ range (m * p), f (k / p) (k % p) = ∑ i ∈ range m, ∑ j ∈ range p, f i j := by
  induction m with
  | zero => simp
  | succ m ih =>
    rw [Nat.succ_mul, sum_range_add, ih, sum_range_succ]
    congr 1
    refine sum_congr rfl fun j hj => ?_
    have hj := mem_range.1 hj
    rw [Nat.mul_comm m p, Nat.mul_add_div (by omega), Nat.div_eq_of_lt hj, Nat.mul_add_mod, Nat.mod_eq_of_lt hj, Nat.add_zero]

/-- The covariance of a filled with an unfilled channel, both centred: the mean of the filled one drops out. -/
private theorem entry_centred (n : ℕ) (f : ℕ → ℝ) (y : ℕ → Option ℝ) :
    vcEntry true n (vcCenter true n fun k => some (f k)) (vcCenter true n y) =
      divO (some (∑ k ∈ range n, (y k).elim 0 fun v => f k * (v - vecNansum n y / vecCount n y)))
        (some ((if vecCount n y = 0 then 0 else (vecCount n y : ℝ)) - 1)) := by
  by_cases h0 : vecCount n y = 0
  · have hy : ∀ k < n, y k = none := by
      intro k hk
      unfold vecCount at h0
      have := sum_eq_zero_iff.1 h0 k (mem_range.2 hk)
      cases e : y k with
      | none => rfl
      | some v => rw [e] at this; simp at this
    have hc : vcCenter true n y = fun _ => none := by
      funext k
      unfold vcCenter
      rw [if_pos rfl, h0]
      cases y k <;> simp [divO, subO]
    unfold vcEntry
    rw [hc, if_pos h0]
    have e1 : ∀ k, mulO (vcCenter true n (fun k => some (f k)) k) none = none := by
      intro k
      cases vcCenter true n (fun k => some (f k)) k <;> rfl
    simp only [e1]
    rw [sum_eq_zero (fun k hk => by rw [hy k (mem_range.1 hk)]; rfl)]
    simp [vecNansum, vecCount]
  · have hn : 0 < n := by
      rcases Nat.eq_zero_or_pos n with rfl | h
      · exact absurd (by simp [vecCount]) h0
      · exact h
    have hnr : (n : ℝ) ≠ 0 := by exact_mod_cast hn.ne'
    have hcr : (vecCount n y : ℝ) ≠ 0 := by exact_mod_cast h0
    have hcf : vecCount n (fun k => some (f k)) = n := by simp [vecCount]
    set Y := vecNansum n y / vecCount n y with hY
    set A := vecNansum n (fun k => some (f k)) / n with hA
    have hx : vcCenter true n (fun k => some (f k)) = fun k => some (f k - A) := by
      funext k
      unfold vcCenter
      rw [if_pos rfl, hcf, divO_some hnr]
      rfl
    have hy : vcCenter true n y = fun k => (y k).map fun v => v - Y := by
      funext k
      unfold vcCenter
      rw [if_pos rfl, divO_some hcr]
      cases y k <;> rfl
    have hz : ∑ k ∈ range n, (y k).elim 0 (fun v => v - Y) = 0 := by
      have e : ∀ k, (y k).elim 0 (fun v => v - Y) = (y k).getD 0 - Y * (if (y k).isSome then 1 else 0) := by
        intro k
        cases y k <;> simp
      simp only [e]
      rw [sum_sub_distrib, ← mul_sum]
      have e2 : (∑ k ∈ range n, if (y k).isSome then (1 : ℝ) else 0) = vecCount n y := by
        unfold vecCount
        push_cast
        rfl
      rw [e2]
      show vecNansum n y - Y * vecCount n y = 0
      rw [hY]
      field_simp
      ring
    unfold vcEntry
    rw [hx, hy, if_neg h0]
    have e1 : vecNansum n (fun k => mulO (some (f k - A)) ((y k).map fun v => v - Y)) =
        ∑ k ∈ range n, (y k).elim 0 fun v => f k * (v - Y) := by
      unfold vecNansum
      have e : ∀ k, (mulO (some (f k - A)) ((y k).map fun v => v - Y)).getD 0 =
          (y k).elim 0 (fun v => f k * (v - Y)) - A * (y k).elim 0 fun v => v - Y := by
        intro k
        cases y k with
        | none => simp [mulO]
        | some v => simp [mulO]; ring
      simp only [e]
      rw [sum_sub_distrib, ← mul_sum, hz, mul_zero, sub_zero]
    have e2 : vecCount n (fun k => mulO (some (f k - A)) ((y k).map fun v => v - Y)) = vecCount n y := by
      unfold vecCount
      refine sum_congr rfl fun k _ => ?_
      beta_reduce
      cases y k <;> rfl
    simp only [e1, e2, if_true]

/-- **PCA (partial).** The covariances of different channels are kept by a frame of missing spectra, with or without mean subtraction. Missing: the
variances, see `C122_pca_violated`. -/
theorem C122_pca_partial (eps : ℝ) (ms : Bool) (cube : Arr3 (Option ℝ)) (t b l r : ℕ) (c d : ℕ) (hcd : c ≠ d) :
    (varCovCube eps ms (Spec.framedCube t b l r cube)).get c d = (varCovCube eps ms cube).get c d := by
  have inn : ∀ a, ∀ i < cube.m, ∀ j < cube.p, (Spec.framedCube t b l r cube).get a (t + i) (l + j) = cube.get a i j := by
    intro a i hi j hj
    show (if _ then _ else _) = _
    rw [if_pos (by omega), Nat.add_sub_cancel_left, Nat.add_sub_cancel_left]
  have out : ∀ a i j, ¬(t ≤ i ∧ i < t + cube.m ∧ l ≤ j ∧ j < l + cube.p) → (Spec.framedCube t b l r cube).get a i j = none := fun a i j h => if_neg h
  have gen : ∀ {M : Type} [AddCommMonoid M] (c d : ℕ) (f : ℝ → Option ℝ → M), (∀ x, f x none = 0) →
      ∑ k ∈ range ((Spec.framedCube t b l r cube).m * (Spec.framedCube t b l r cube).p),
        f ((chanVec (Spec.framedCube t b l r cube) c k).getD eps) (chanVec (Spec.framedCube t b l r cube) d k) =
      ∑ k ∈ range (cube.m * cube.p), f ((chanVec cube c k).getD eps) (chanVec cube d k) := by
    intro M _ c d f hf
    refine (sum_flat _ _ fun i j => f (((Spec.framedCube t b l r cube).get c i j).getD eps) ((Spec.framedCube t b l r cube).get d i j)).trans ?_
    refine Eq.trans ?_ (sum_flat _ _ fun i j => f ((cube.get c i j).getD eps) (cube.get d i j)).symm
    refine (sum_frame2 t cube.m b l cube.p r _ fun i _ j _ h => ?_).trans (sum_congr rfl fun i hi => sum_congr rfl fun j hj => ?_)
    · rw [out d i j h]
      exact hf _
    · rw [inn _ i (mem_range.1 hi) j (mem_range.1 hj), inn _ i (mem_range.1 hi) j (mem_range.1 hj)]
  have entry : ∀ c d : ℕ, c ≠ d → vcEntry ms ((Spec.framedCube t b l r cube).m * (Spec.framedCube t b l r cube).p)
      (vcCenter ms ((Spec.framedCube t b l r cube).m * (Spec.framedCube t b l r cube).p) (vcFill eps (chanVec (Spec.framedCube t b l r cube) c)))
        (vcCenter ms ((Spec.framedCube t b l r cube).m * (Spec.framedCube t b l r cube).p) (chanVec (Spec.framedCube t b l r cube) d)) =
      vcEntry ms (cube.m * cube.p) (vcCenter ms (cube.m * cube.p) (vcFill eps (chanVec cube c))) (vcCenter ms (cube.m * cube.p) (chanVec cube d)) := by
    intro c d _
    cases ms with
    | false =>
      simp only [vcCenter, Bool.false_eq_true, if_false]
      unfold vcEntry vecNansum vecCount
      simp only
      have e0 : ∀ x : ℝ, mulO (some x) none = none := fun _ => rfl
      have g1 := gen c d (fun x v => (mulO (some x) v).getD 0) (fun x => by rw [e0]; rfl)
      have g2 := gen c d (fun x v => if (mulO (some x) v).isSome then 1 else 0) (fun x => by rw [e0]; rfl)
      unfold vcFill
      rw [g1, g2]
    | true =>
      have e1 : vecCount ((Spec.framedCube t b l r cube).m * (Spec.framedCube t b l r cube).p) (chanVec (Spec.framedCube t b l r cube) d) =
          vecCount (cube.m * cube.p) (chanVec cube d) := gen c d (fun _ v => if v.isSome then 1 else 0) fun _ => rfl
      have e2 : vecNansum ((Spec.framedCube t b l r cube).m * (Spec.framedCube t b l r cube).p) (chanVec (Spec.framedCube t b l r cube) d) =
          vecNansum (cube.m * cube.p) (chanVec cube d) := gen c d (fun _ v => v.getD 0) fun _ => rfl
      unfold vcFill
      rw [entry_centred, entry_centred, e1, e2]
      rw [gen c d (fun x y => y.elim 0 fun v => x * (v - vecNansum (cube.m * cube.p) (chanVec cube d) / vecCount (cube.m * cube.p) (chanVec cube d)))
        fun _ => rfl]
  have low : ∀ c d : ℕ, c ≠ d → vcLower eps ms (Spec.framedCube t b l r cube) c d = vcLower eps ms cube c d := by
    intro c d h
    unfold vcLower
    simp only
    rw [entry c d h, if_neg h.symm, if_neg h.symm]
  show (addO _ _).getD 0 = (addO _ _).getD 0
  rw [low c d hcd, low d c hcd.symm]

/-- VIOLATION: on the diagonal missing pixels are replaced by `eps` and counted. The variance of a single voxel of value 1 is 1; next to a missing pixel it is
(1 + eps²)/2. -/
theorem C122_pca_violated (eps : ℝ) : ∃ cube : Arr3 (Option ℝ), (varCovCube eps false cube).get 0 0 = 1 ∧
    (varCovCube eps false (Spec.framedCube 0 0 0 1 cube)).get 0 0 = (1 + eps ^ 2) / 2 := by
  refine ⟨⟨1, 1, 1, fun _ _ _ => some 1⟩, ?_, ?_⟩
  · norm_num [varCovCube, vcLower, vcEntry, vcCenter, vcFill, vecCount, vecNansum, chanVec, mulO, addO, divO]
  · norm_num [varCovCube, vcLower, vcEntry, vcCenter, vcFill, vecCount, vecNansum, chanVec, mulO, addO, divO, Spec.framedCube, sum_range_succ]
    ring

/-- VIOLATION: the same with mean subtraction. One channel with the values 1 and 3 has the variance 2; next to a missing pixel it is
(10 + eps² - (4 + eps)²/3)/2. -/
theorem C122_pca_mean_violated (eps : ℝ) : ∃ cube : Arr3 (Option ℝ), (varCovCube eps true cube).get 0 0 = 2 ∧
    (varCovCube eps true (Spec.framedCube 0 0 0 1 cube)).get 0 0 = (10 + eps ^ 2 - (4 + eps) ^ 2 / 3) / 2 := by
  refine ⟨⟨1, 1, 2, fun _ _ j => if j = 0 then some 1 else some 3⟩, ?_, ?_⟩
  · norm_num [varCovCube, vcLower, vcEntry, vcCenter, vcFill, vecCount, vecNansum, chanVec, mulO, addO, divO, subO, sum_range_succ]
  · norm_num [varCovCube, vcLower, vcEntry, vcCenter, vcFill, vecCount, vecNansum, chanVec, mulO, addO, divO, subO, Spec.framedCube, sum_range_succ]
    ring

/-! ### SCF and Cramer -/

/-- VIOLATION: in the SCF surface with continuous boundaries a pair with a missing member counts as a pair without difference. Two rows of values 1 and 2 at
a lag of one row: 1 - √(1/5), and 1 - √(1/15) with a blank row below. -/
theorem C122_scf_violated : ∃ (cube : Arr3 (Option ℝ)) (lag : Arr1 ℤ), ∃ s s',
    scfSurface "continuous" cube (lag.map fun k : ℤ => (k : ℝ)) = .ok s ∧
    scfSurface "continuous" (Spec.framedCube 0 1 0 0 cube) (lag.map fun k : ℤ => (k : ℝ)) = .ok s' ∧
    s.get 0 1 = some (1 - Real.sqrt (1 / 5)) ∧ s'.get 0 1 = some (1 - Real.sqrt (1 / 15)) := by
  classical
  set cube : Arr3 (Option ℝ) := ⟨1, 2, 1, fun _ i _ => some ((i : ℝ) + 1)⟩ with hcube
  obtain ⟨s, hs, _, _, hg⟩ := C25_surface_values cube ⟨2, fun k => k⟩
  obtain ⟨s', hs', _, _, hg'⟩ := C25_surface_values (Spec.framedCube 0 1 0 0 cube) ⟨2, fun k => k⟩
  refine ⟨cube, ⟨2, fun k => k⟩, s, s', hs, hs', ?_, ?_⟩
  · rw [hg 0 (by norm_num) 1 (by norm_num)]
    have hP : Spec.periodicPairs cube.m cube.p (((1 : ℕ) : ℤ)) (((0 : ℕ) : ℤ)) = {((1, 0), (0, 0)), ((0, 0), (1, 0))} := by decide
    have hgood : (Spec.periodicPairs cube.m cube.p (((1 : ℕ) : ℤ)) (((0 : ℕ) : ℤ))).filter
        (fun pq => Spec.power cube pq.1 + Spec.power cube pq.2 ≠ 0) = {((1, 0), (0, 0)), ((0, 0), (1, 0))} := by
      rw [hP]
      refine filter_true_of_mem fun pq hpq => ?_
      simp only [mem_insert, mem_singleton] at hpq
      rcases hpq with rfl | rfl <;> norm_num [Spec.power, hcube]
    unfold Spec.scf
    simp only [hgood]
    rw [if_neg (by simp), sum_pair (by decide), card_pair (by decide)]
    norm_num [Spec.power, Spec.sqDiff, hcube]
  · rw [hg' 0 (by norm_num) 1 (by norm_num)]
    have hP : Spec.periodicPairs (Spec.framedCube 0 1 0 0 cube).m (Spec.framedCube 0 1 0 0 cube).p (((1 : ℕ) : ℤ)) (((0 : ℕ) : ℤ)) =
        {((1, 0), (0, 0)), ((2, 0), (1, 0)), ((0, 0), (2, 0))} := by decide
    have hgood : (Spec.periodicPairs (Spec.framedCube 0 1 0 0 cube).m (Spec.framedCube 0 1 0 0 cube).p (((1 : ℕ) : ℤ)) (((0 : ℕ) : ℤ))).filter
        (fun pq => Spec.power (Spec.framedCube 0 1 0 0 cube) pq.1 + Spec.power (Spec.framedCube 0 1 0 0 cube) pq.2 ≠ 0) =
        {((1, 0), (0, 0)), ((2, 0), (1, 0)), ((0, 0), (2, 0))} := by
      rw [hP]
      refine filter_true_of_mem fun pq hpq => ?_
      simp only [mem_insert, mem_singleton] at hpq
      rcases hpq with rfl | rfl | rfl <;> norm_num [Spec.power, hcube, Spec.framedCube]
    unfold Spec.scf
    simp only [hgood]
    rw [if_neg (by simp), sum_insert (by decide), sum_pair (by decide), card_insert_of_notMem (by decide), card_pair (by decide)]
    norm_num [Spec.power, Spec.sqDiff, hcube, Spec.framedCube]

/-- VIOLATION: the number of values which the Cramer statistic takes from each channel is a fraction of the number of all pixels, missing ones included. Half of
two pixels is one value per channel; with two missing pixels beside them, it is two. -/
theorem C122_cramer_violated : ∃ cube : Arr3 (Option ℝ), ∃ s s', intensityData cube (1 / 2) none false = .ok s ∧
    intensityData (Spec.framedCube 0 0 0 2 cube) (1 / 2) none false = .ok s' ∧ s.m = 1 ∧ s'.m = 2 := by
  have h1 : npRound (1 / 2 * ((1 : ℕ) : ℝ) * ((2 : ℕ) : ℝ)) = 1 := by norm_num [npRound]
  have h2 : npRound (1 / 2 * ((0 + 1 + 0 : ℕ) : ℝ) * ((0 + 2 + 2 : ℕ) : ℝ)) = 2 := by norm_num [npRound]
  have key : ∀ (c : Arr3 (Option ℝ)) (k : ℕ), npRound (1 / 2 * (c.m : ℝ) * (c.p : ℝ)) = k → ∃ s, intensityData c (1 / 2) none false = .ok s ∧ s.m = k := by
    intro c k hk
    refine ⟨⟨c.n, k, fun dv i => divO (some ((padOrCut (sortDesc (keptValues c none dv)) k).getD i 0)) (some 1)⟩, ?_, rfl⟩
    unfold intensityData
    rw [hk]
    simp
  obtain ⟨s, e, hs⟩ := key ⟨1, 1, 2, fun _ _ j => some ((j : ℝ) + 1)⟩ 1 h1
  obtain ⟨s', e', hs'⟩ := key (Spec.framedCube 0 0 0 2 ⟨1, 1, 2, fun _ _ j => some ((j : ℝ) + 1)⟩) 2 h2
  exact ⟨_, s, s', e, e', hs, hs'⟩

end TS
