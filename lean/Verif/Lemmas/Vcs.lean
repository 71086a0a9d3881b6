import Verif.Lemmas.PSpec

/-! Helper lemmas for C04. -/

namespace TS
open Finset Spec

theorem sum_power3_sky (a : Arr3 ℝ) (hm : 0 < a.m) (hp : 0 < a.p) (k : ℤ) :
    ∑ i ∈ range a.m, ∑ j ∈ range a.p,
      ‖dft3 a.n a.m a.p (fun x i j => (a.get x i j : ℂ)) k i j‖ ^ 2
      = a.m * a.p * ∑ i ∈ range a.m, ∑ j ∈ range a.p, specPower a i j k := by
  simp_rw [dft3_eq_dft2_dft1]
  rw [parseval2 hm hp]
  rfl

theorem specPower_scale (c : ℝ) (a : Arr3 ℝ) (i j : ℕ) (k : ℤ) :
    specPower (a.map (fun x => c * x)) i j k = c ^ 2 * specPower a i j k := by
  unfold specPower
  have : (fun x => ((losSpectrum (a.map (fun x => c * x)) i j x : ℝ) : ℂ))
      = fun x => (c : ℂ) * (losSpectrum a i j x : ℂ) := by
    funext x; simp [losSpectrum, Arr3.map]
  rw [this]
  simp only [Arr3.map]
  rw [dft1_const_mul, norm_mul, mul_pow]
  simp

theorem sum_grid (n m : ℕ) (f : ℕ → ℕ → ℝ) :
    ∑ i ∈ range n, ∑ j ∈ range m, f i j = ∑ ij : Fin n × Fin m, f ij.1 ij.2 := by
  rw [Fintype.sum_prod_type, ← Fin.sum_univ_eq_sum_range (fun i => ∑ j ∈ range m, f i j)]
  apply sum_congr rfl; intro i _
  rw [← Fin.sum_univ_eq_sum_range (fun j => f i j)]

/-- The VCS pipeline for any cube. -/
theorem vcs_general (cube : Arr3 (Option ℝ)) (hn : 0 < cube.n) (hm : 0 < cube.m) (hp : 0 < cube.p) :
    ∃ ps, vcsComputePspec cube = .ok ps ∧ ps.n = cube.n ∧
      ∀ k < cube.n, ps.get k = divO (some (cube.m * cube.p *
        (∑ i ∈ range cube.m, ∑ j ∈ range cube.p, specPower (fillNan3 0 cube) i j k)))
        (some (vcsGoodPixels (vcsInit cube).1 (fillNan3 0 cube))) := by
  obtain ⟨b, hb, hbn, hbm, hbp, hget⟩ := C01_rfft_to_fft_3d (fillNan3 0 cube) hn hm hp
  have hbn' : b.n = cube.n := hbn
  have hbm' : b.m = cube.m := hbm
  have hbp' : b.p = cube.p := hbp
  have e : vcsComputePspec cube = .ok ⟨b.n, fun a =>
      divO (some (∑ i ∈ range b.m, ∑ j ∈ range b.p, b.get a i j ^ 2))
        (some (vcsGoodPixels (vcsInit cube).1 (fillNan3 0 cube)))⟩ := by
    simp only [vcsComputePspec, vcsInit]
    rw [hb]; rfl
  refine ⟨_, e, hbn', ?_⟩
  intro k hk
  simp only
  congr 2
  have h2 := sum_power3_sky (fillNan3 0 cube) hm hp k
  have e1 : (fillNan3 0 cube).m = cube.m := rfl
  have e2 : (fillNan3 0 cube).p = cube.p := rfl
  rw [e1, e2] at h2
  rw [← h2, hbm', hbp']
  apply sum_congr rfl; intro i hi
  apply sum_congr rfl; intro j hj
  rw [hget k (by omega) i (by rw [hbm']; exact mem_range.1 hi) j (by rw [hbp']; exact mem_range.1 hj)]
  rfl

theorem le_foldl_max (l : List ℕ) (f : ℕ → ℝ) (x : ℝ) :
    x ≤ l.foldl (fun acc a => max acc (f a)) x ∧
    ∀ a ∈ l, f a ≤ l.foldl (fun acc a => max acc (f a)) x := by
  induction l generalizing x with
  | nil => simp
  | cons b l ih =>
    simp only [List.foldl_cons]
    obtain ⟨h1, h2⟩ := ih (max x (f b))
    refine ⟨le_trans (le_max_left _ _) h1, ?_⟩
    intro a ha
    rcases List.mem_cons.1 ha with rfl | h
    · exact le_trans (le_max_right _ _) h1
    · exact h2 a h

theorem foldl_max_const (l : List ℕ) (f : ℕ → ℝ) (x : ℝ) (h : ∀ a ∈ l, f a = x) :
    l.foldl (fun acc a => max acc (f a)) x = x := by
  induction l with
  | nil => rfl
  | cons b l ih =>
    simp only [List.foldl_cons, h b (by simp), max_self]
    exact ih (fun a ha => h a (by simp [ha]))

theorem foldl_maxf_mem (l : List ℕ) (f : ℕ → ℝ) (x : ℝ) :
    l.foldl (fun acc a => max acc (f a)) x = x ∨ ∃ a ∈ l, l.foldl (fun acc a => max acc (f a)) x = f a := by
  induction l generalizing x with
  | nil => simp
  | cons b l ih =>
    simp only [List.foldl_cons]
    rcases ih (max x (f b)) with h | ⟨a, ha, h⟩
    · rcases max_choice x (f b) with e | e
      · left; rw [h, e]
      · right; exact ⟨b, by simp, by rw [h, e]⟩
    · right; exact ⟨a, by simp [ha], h⟩

theorem specMax_largest {n : ℕ} (hn : 0 < n) (f : ℕ → ℝ) : Spec.LargestIs n f (specMax n f) := by
  constructor
  · rcases foldl_maxf_mem (List.range n) f (f 0) with h | ⟨a, ha, h⟩
    · exact ⟨0, hn, h.symm⟩
    · exact ⟨a, List.mem_range.1 ha, h.symm⟩
  · intro a ha
    exact (le_foldl_max (List.range n) f (f 0)).2 a (List.mem_range.2 ha)

theorem specMax_eq_iff {n : ℕ} (hn : 0 < n) (f : ℕ → ℝ) (v : ℝ) : specMax n f = v ↔ Spec.LargestIs n f v := by
  constructor
  · rintro rfl; exact specMax_largest hn f
  · rintro ⟨⟨a, ha, rfl⟩, h2⟩
    obtain ⟨⟨b, hb, e⟩, h3⟩ := specMax_largest hn f
    exact le_antisymm (e ▸ h2 b hb) (h3 a ha)

open Classical in
theorem vcsGoodPixels_card (cube : Arr3 (Option ℝ)) (hn : 0 < cube.n) :
    vcsGoodPixels true (fillNan3 0 cube)
      = (((range cube.m ×ˢ range cube.p).filter (fun ij => ¬ Spec.LargestIs cube.n
        (fun a => (cube.get a ij.1 ij.2).getD 0) 0)).card : ℝ) := by
  unfold vcsGoodPixels
  rw [if_pos rfl, Finset.card_filter]
  push_cast
  rw [Finset.sum_product]
  apply sum_congr rfl; intro i _
  apply sum_congr rfl; intro j _
  have k := specMax_eq_iff hn (fun a => (cube.get a i j).getD 0) 0
  by_cases h : Spec.LargestIs cube.n (fun a => (cube.get a i j).getD 0) 0
  · rw [if_neg (not_not.2 h)]
    exact if_neg (not_not.2 (k.2 h))
  · rw [if_pos h]
    exact if_pos (fun h' => h (k.1 h'))

theorem vcsGoodPixels_pos (cube : Arr3 (Option ℝ)) (hn : 0 < cube.n)
    (hpos : ∀ a i j x, cube.get a i j = some x → 0 < x) :
    vcsGoodPixels true (fillNan3 0 cube)
      = (((range cube.m ×ˢ range cube.p).filter
          (fun ij => ∃ a < cube.n, cube.get a ij.1 ij.2 ≠ none)).card : ℝ) := by
  classical
  have key : ∀ i j, specMax cube.n (fun a => (cube.get a i j).getD 0) ≠ 0
      ↔ ∃ a < cube.n, cube.get a i j ≠ none := by
    intro i j
    constructor
    · intro h
      by_contra hno
      push Not at hno
      apply h
      unfold specMax
      have : (cube.get 0 i j).getD 0 = 0 := by rw [hno 0 hn]; rfl
      beta_reduce
      rw [this]
      apply foldl_max_const
      intro a ha
      rw [hno a (List.mem_range.1 ha)]; rfl
    · rintro ⟨a, ha, hne⟩
      obtain ⟨x, hx⟩ := Option.ne_none_iff_exists'.1 hne
      have h1 := (le_foldl_max (List.range cube.n) (fun a => (cube.get a i j).getD 0)
        ((cube.get 0 i j).getD 0)).2 a (List.mem_range.2 ha)
      have h2 := hpos a i j x hx
      simp only [hx, Option.getD_some] at h1
      unfold specMax
      exact ne_of_gt (lt_of_lt_of_le h2 h1)
  unfold vcsGoodPixels
  rw [if_pos rfl, Finset.card_filter]
  push_cast
  rw [Finset.sum_product]
  apply sum_congr rfl; intro i _
  apply sum_congr rfl; intro j _
  have k := key i j
  by_cases h : ∃ a < cube.n, cube.get a i j ≠ none
  · rw [if_pos h]
    exact if_pos (k.2 h)
  · rw [if_neg h]
    exact if_neg (fun h' => h (k.1 h'))

end TS
