import Verif.Props.C118
import Verif.Props.C33
import Verif.Props.C37
import Verif.Props.C105
import Verif.Props.C04
import Verif.Model.ScfSpectrum
import Verif.Model.SpecWidth

/-!
C119.  The direction of the spectral axis: a cube and the same cube with its channels in another order.
-/

namespace TS
open Finset Spec

namespace Spec

/-- The cube whose channel `k` is channel `σ k` of `c`. -/
def reordered {α : Type} (σ : ℕ → ℕ) (c : Arr3 α) : Arr3 α := ⟨c.n, c.m, c.p, fun k i j => c.get (σ k) i j⟩

/-- `σ` is a rearrangement of the channels `0, …, n - 1`. -/
def Reorders (σ : ℕ → ℕ) (n : ℕ) : Prop := (∀ k < n, σ k < n) ∧ ∀ k < n, ∀ l < n, σ k = σ l → k = l

/-- The cube with its spectral axis the other way round. -/
def reversed {α : Type} (c : Arr3 α) : Arr3 α := reordered (fun k => c.n - 1 - k) c

end Spec

/-- Reversing is a rearrangement. -/
theorem C119_reversal (n : ℕ) : Spec.Reorders (fun k => n - 1 - k) n :=
  ⟨fun k hk => by show n - 1 - k < n; omega, fun k hk l hl h => by have : n - 1 - k = n - 1 - l := h; omega⟩

private theorem sum_re {σ : ℕ → ℕ} {n : ℕ} (h : Spec.Reorders σ n) (f : ℕ → ℝ) : ∑ k ∈ range n, f (σ k) = ∑ k ∈ range n, f k := by
  have hi : Set.MapsTo σ (range n : Set ℕ) (range n : Set ℕ) := fun k hk => by
    simp only [coe_range, Set.mem_Iio] at hk ⊢; exact h.1 k hk
  have hj : Set.InjOn σ (range n : Set ℕ) := fun k hk l hl e => by
    simp only [coe_range, Set.mem_Iio] at hk hl; exact h.2 k hk l hl e
  exact sum_nbij σ (fun k hk => by exact_mod_cast hi (by exact_mod_cast hk)) hj
    (Finset.surjOn_of_injOn_of_card_le σ hi hj le_rfl) fun _ _ => rfl

/-! ### SCF -/

private theorem shiftX (σ : ℕ → ℕ) (c : Arr3 (Option ℝ)) (x : ℝ) :
    ∃ t, scfShiftX c x = .ok t ∧ t.n = c.n ∧ scfShiftX (reordered σ c) x = .ok (reordered σ t) := by
  unfold scfShiftX
  split_ifs with h1 h2
  · exact ⟨c, rfl, rfl, rfl⟩
  · exact ⟨_, rfl, rfl, rfl⟩
  · exact ⟨_, rfl, rfl, rfl⟩

private theorem shiftY (σ : ℕ → ℕ) (c : Arr3 (Option ℝ)) (x : ℝ) :
    ∃ t, scfShiftY c x = .ok t ∧ t.n = c.n ∧ scfShiftY (reordered σ c) x = .ok (reordered σ t) := by
  unfold scfShiftY
  split_ifs with h1 h2
  · exact ⟨_, rfl, rfl, rfl⟩
  · exact ⟨_, rfl, rfl, rfl⟩
  · exact ⟨c, rfl, rfl, rfl⟩

private theorem values_re {σ : ℕ → ℕ} {a b : Arr3 (Option ℝ)} (ha : Spec.Reorders σ a.n) (hb : b.n = a.n) :
    scfValues (reordered σ a) (reordered σ b) = scfValues a b := by
  by_cases h : a.n = b.n ∧ a.m = b.m ∧ a.p = b.p
  · have z : a.zip (fun s t => sqO (subO s t)) b = .ok ⟨a.n, a.m, a.p, fun v i j => sqO (subO (a.get v i j) (b.get v i j))⟩ := if_pos h
    have z' : (reordered σ a).zip (fun s t => sqO (subO s t)) (reordered σ b) =
        .ok ⟨a.n, a.m, a.p, fun v i j => sqO (subO (a.get (σ v) i j) (b.get (σ v) i j))⟩ :=
      if_pos (show (reordered σ a).n = (reordered σ b).n ∧ (reordered σ a).m = (reordered σ b).m ∧ (reordered σ a).p = (reordered σ b).p from h)
    simp only [scfValues, z, z', bind, Except.bind, pure, Except.pure, Arr3.nansum0, Arr3.map]
    simp only [reordered]
    congr 2
    funext i j
    rw [sum_re ha fun v => (sqO (subO (a.get v i j) (b.get v i j))).getD 0, sum_re ha fun v => (sqO (a.get v i j)).getD 0,
      sum_re (n := b.n) (hb ▸ ha) fun v => (sqO (b.get v i j)).getD 0]
  · have z : a.zip (fun s t => sqO (subO s t)) b = .error .valueError := if_neg h
    have z' : (reordered σ a).zip (fun s t => sqO (subO s t)) (reordered σ b) = .error .valueError :=
      if_neg (show ¬ ((reordered σ a).n = (reordered σ b).n ∧ (reordered σ a).m = (reordered σ b).m ∧ (reordered σ a).p = (reordered σ b).p) from h)
    simp only [scfValues, z, z', bind, Except.bind]

private theorem value_re {σ : ℕ → ℕ} (b : String) {c : Arr3 (Option ℝ)} (h : Spec.Reorders σ c.n) (x y : ℝ) :
    scfValue b (reordered σ c) x y = scfValue b c x y := by
  obtain ⟨t, e, tn, e'⟩ := shiftX σ c x
  obtain ⟨u, f, un, f'⟩ := shiftY σ t y
  have hp : scfValues (scfParts b (reordered σ c) (reordered σ u) x y).1 (scfParts b (reordered σ c) (reordered σ u) x y).2 =
      scfValues (scfParts b c u x y).1 (scfParts b c u x y).2 := by
    unfold scfParts
    split_ifs
    · exact values_re (σ := σ) (a := (c.slice1 (scfCutSlices u.m ⌈x⌉).1).slice2 (scfCutSlices u.p ⌈y⌉).1)
        (b := (u.slice1 (scfCutSlices u.m ⌈x⌉).2).slice2 (scfCutSlices u.p ⌈y⌉).2) h (un.trans tn)
    · exact values_re h (un.trans tn)
  unfold scfValue
  simp only [e, e', f, f', bind, Except.bind, hp]

/-- **SCF surface.** The order of the channels does not change the surface, whole or fractional lags, either boundary. -/
theorem C119_scf_surface (b : String) (c : Arr3 (Option ℝ)) (lags : Arr1 ℝ) (σ : ℕ → ℕ) (h : Spec.Reorders σ c.n) :
    scfSurface b (reordered σ c) lags = scfSurface b c lags := by
  have e : scfStep b (reordered σ c) lags = scfStep b c lags := by
    funext s n
    simp only [scfStep, value_re b h]
  unfold scfSurface
  rw [e]

/-- **SCF object.** Nor does it change what `compute_surface` and `compute_spectrum` leave in the object, whatever their options. -/
theorem C119_scf (o : ScfObj) (b : String) (c : Arr3 (Option ℝ)) (k : ScfSpecKw) (σ : ℕ → ℕ) (h : Spec.Reorders σ c.n) :
    o.computeSurface b (reordered σ c) = o.computeSurface b c ∧ o.computeSpectrum (reordered σ c) k = o.computeSpectrum c k := by
  have e : ∀ b lags, scfStepIn b (reordered σ c) lags = scfStepIn b c lags := by
    intro b lags
    funext s n
    simp only [scfStepIn, scfStep, value_re b h]
  have e2 : ∀ b, o.computeSurface b (reordered σ c) = o.computeSurface b c := by
    intro b
    unfold ScfObj.computeSurface scfSurfaceIn
    rw [e]
  refine ⟨e2 b, ?_⟩
  unfold ScfObj.computeSpectrum ScfObj.ensureSurface
  cases o.surface with
  | none => simp only [e2]
  | some s => rfl

/-! ### VCA and VCS -/

private theorem vca_plain {σ : ℕ → ℕ} {a : Arr3 ℝ} (h : Spec.Reorders σ a.n) (hn : 0 < a.n) (hm : 0 < a.m) (hp : 0 < a.p) :
    ∃ ps ps', vcaComputePspec a none = .ok ps ∧ vcaComputePspec (reordered σ a) none = .ok ps' ∧ ps'.Same ps := by
  obtain ⟨ps, e, n1, m1, g⟩ := C03_vca_channel_sum a hn hm hp
  obtain ⟨ps', e', n2, m2, g'⟩ := C03_vca_channel_sum (reordered σ a) hn hm hp
  refine ⟨ps, ps', e, e', n2.trans n1.symm, m2.trans m1.symm, fun i hi j hj => ?_⟩
  have hi' : i < a.m := by rw [n2] at hi; exact hi
  have hj' : j < a.p := by rw [m2] at hj; exact hj
  rw [g i hi' j hj', g' i hi' j hj']
  congr 1
  exact sum_re h fun c => power2 (channel a c) ((i : ℤ) - (a.m / 2 : ℕ)) ((j : ℤ) - (a.p / 2 : ℕ))

/-- **VCA.** The order of the channels does not change the power spectrum, with or without an apodizing window. -/
theorem C119_vca (a : Arr3 ℝ) (hn : 0 < a.n) (hm : 0 < a.m) (hp : 0 < a.p) (apod : Option ApodArgs) (σ : ℕ → ℕ) (h : Spec.Reorders σ a.n)
    (ps : Arr2 ℝ) (e : vcaComputePspec a apod = .ok ps) : ∃ ps', vcaComputePspec (reordered σ a) apod = .ok ps' ∧ ps'.Same ps := by
  cases apod with
  | none =>
    obtain ⟨q, ps', e1, e2, hs⟩ := vca_plain h hn hm hp
    rw [e] at e1
    cases e1
    exact ⟨ps', e2, hs⟩
  | some k =>
    have key : ∀ d : Arr3 ℝ, vcaComputePspec d (some k) =
        (do let w ← apodizingKernel k.kernelType k.alpha k.beta [d.n, d.m, d.p]
            let d' ← mul32 d w
            vcaComputePspec d' none) := by
      intro d
      unfold vcaComputePspec
      simp only [bind, Except.bind]
    rw [key] at e ⊢
    simp only [bind, Except.bind] at e ⊢
    rw [show apodizingKernel k.kernelType k.alpha k.beta [(reordered σ a).n, (reordered σ a).m, (reordered σ a).p] =
      apodizingKernel k.kernelType k.alpha k.beta [a.n, a.m, a.p] from rfl]
    cases hw : apodizingKernel k.kernelType k.alpha k.beta [a.n, a.m, a.p] with
    | error x => rw [hw] at e; cases e
    | ok w =>
      rw [hw] at e
      simp only at e ⊢
      unfold mul32 at e ⊢
      by_cases hc : a.m = w.n ∧ a.p = w.m
      · rw [if_pos hc] at e
        rw [if_pos (show (reordered σ a).m = w.n ∧ (reordered σ a).p = w.m from hc)]
        simp only at e ⊢
        obtain ⟨q, ps', e1, e2, hs⟩ := vca_plain (a := ⟨a.n, a.m, a.p, fun c i j => a.get c i j * w.get i j⟩) h hn hm hp
        rw [e] at e1
        cases e1
        exact ⟨ps', e2, hs⟩
      · rw [if_neg hc] at e; cases e

private theorem power_rev (n : ℕ) (x : ℕ → ℝ) (k : ℤ) :
    ‖dft1 n (fun c => (x (n - 1 - c) : ℂ)) k‖ = ‖dft1 n (fun c => (x c : ℂ)) k‖ := by
  have h : dft1 n (fun c => (x (n - 1 - c) : ℂ)) k = om n (((n : ℤ) - 1) * k) * dft1 n (fun c => (x c : ℂ)) (-k) := by
    unfold dft1
    rw [← sum_range_reflect (fun j => (x j : ℂ) * om n (j * -k)) n, mul_sum]
    apply sum_congr rfl
    intro i hi
    have : om n (i * k) = om n (((n : ℤ) - 1) * k) * om n (((n - 1 - i : ℕ) : ℤ) * -k) := by
      rw [← om_add]
      congr 1
      have := mem_range.1 hi
      rw [show ((n - 1 - i : ℕ) : ℤ) = (n : ℤ) - 1 - i by omega]
      ring
    rw [this]
    ring
  rw [h, norm_mul, norm_om, one_mul, ← conj_dft1, Complex.norm_conj]

private theorem foldl_max_mono (g : ℕ → ℝ) (l : List ℕ) (x : ℝ) :
    x ≤ l.foldl (fun acc a => max acc (g a)) x ∧ (∀ a ∈ l, g a ≤ l.foldl (fun acc a => max acc (g a)) x) ∧
      (l.foldl (fun acc a => max acc (g a)) x = x ∨ ∃ a ∈ l, l.foldl (fun acc a => max acc (g a)) x = g a) := by
  induction l generalizing x with
  | nil => exact ⟨le_rfl, by simp, Or.inl rfl⟩
  | cons b l ih =>
    obtain ⟨h1, h2, h3⟩ := ih (max x (g b))
    simp only [List.foldl_cons]
    refine ⟨le_trans (le_max_left _ _) h1, ?_, ?_⟩
    · intro a ha
      rcases List.mem_cons.1 ha with rfl | ha
      · exact le_trans (le_max_right _ _) h1
      · exact h2 a ha
    · rcases h3 with h3 | ⟨a, ha, h3⟩
      · rcases max_choice x (g b) with hm | hm
        · exact Or.inl (h3.trans hm)
        · exact Or.inr ⟨b, by simp, h3.trans hm⟩
      · exact Or.inr ⟨a, by simp [ha], h3⟩

private theorem specMax_spec {n : ℕ} (hn : 0 < n) (g : ℕ → ℝ) : (∃ a < n, specMax n g = g a) ∧ ∀ a < n, g a ≤ specMax n g := by
  obtain ⟨_, h2, h3⟩ := foldl_max_mono g (List.range n) (g 0)
  refine ⟨?_, fun a ha => h2 a (List.mem_range.2 ha)⟩
  rcases h3 with h3 | ⟨a, ha, h3⟩
  · exact ⟨0, hn, h3⟩
  · exact ⟨a, List.mem_range.1 ha, h3⟩

private theorem specMax_rev {n : ℕ} (hn : 0 < n) (g : ℕ → ℝ) : specMax n (fun a => g (n - 1 - a)) = specMax n g := by
  obtain ⟨⟨a, ha, e⟩, h⟩ := specMax_spec hn g
  obtain ⟨⟨b, hb, e'⟩, h'⟩ := specMax_spec hn fun a => g (n - 1 - a)
  apply le_antisymm
  · rw [e']; exact h _ (by omega)
  · rw [e]
    have := h' (n - 1 - a) (by omega)
    rwa [show n - 1 - (n - 1 - a) = a by omega] at this

/-- **VCS.** Turning the spectral axis round does not change the spectrum, missing voxels included. -/
theorem C119_vcs (cube : Arr3 (Option ℝ)) (hn : 0 < cube.n) (hm : 0 < cube.m) (hp : 0 < cube.p) :
    ∃ ps ps', vcsComputePspec cube = .ok ps ∧ vcsComputePspec (reversed cube) = .ok ps' ∧ ps'.Same ps := by
  obtain ⟨ps, e, n1, g⟩ := vcs_general cube hn hm hp
  obtain ⟨ps', e', n2, g'⟩ := vcs_general (reversed cube) hn hm hp
  refine ⟨ps, ps', e, e', n2.trans n1.symm, fun k hk => ?_⟩
  have hk' : k < cube.n := by rw [n2] at hk; exact hk
  rw [g k hk', g' k hk']
  have hflag : (vcsInit (reversed cube)).1 = (vcsInit cube).1 := by
    unfold vcsInit
    simp only [decide_eq_decide]
    constructor
    · rintro ⟨a, ha, i, hi, j, hj, h⟩
      exact ⟨cube.n - 1 - a, by have : a < cube.n := ha; omega, i, hi, j, hj, h⟩
    · rintro ⟨a, ha, i, hi, j, hj, h⟩
      refine ⟨cube.n - 1 - a, (by omega : cube.n - 1 - a < cube.n), i, hi, j, hj, ?_⟩
      show cube.get (cube.n - 1 - (cube.n - 1 - a)) i j = none
      rw [show cube.n - 1 - (cube.n - 1 - a) = a by omega]
      exact h
  have hgood : vcsGoodPixels (vcsInit cube).1 (fillNan3 0 (reversed cube)) = vcsGoodPixels (vcsInit cube).1 (fillNan3 0 cube) := by
    unfold vcsGoodPixels
    split_ifs
    · apply sum_congr rfl
      intro i _
      apply sum_congr rfl
      intro j _
      have : specMax cube.n (fun a => (fillNan3 0 (reversed cube)).get a i j) = specMax cube.n (fun a => (fillNan3 0 cube).get a i j) :=
        specMax_rev hn fun a => (fillNan3 0 cube).get a i j
      exact if_congr (by rw [show (fillNan3 0 (reversed cube)).n = cube.n from rfl, this]; rfl) rfl rfl
    · rfl
  rw [hflag, hgood]
  have hs : ∀ i j, specPower (fillNan3 0 (reversed cube)) i j k = specPower (fillNan3 0 cube) i j k := by
    intro i j
    unfold specPower
    exact congrArg (· ^ 2) (power_rev cube.n (losSpectrum (fillNan3 0 cube) i j) k)
  simp only [hs]
  rfl

/-! ### PCA -/

private theorem eigh_re {n : ℕ} {C : ℕ → ℕ → ℝ} {lam : ℕ → ℝ} {V : ℕ → ℕ → ℝ} {σ : ℕ → ℕ} (h : Spec.Reorders σ n) (hE : Spec.IsEigh n C lam V) :
    Spec.IsEigh n (fun i j => C (σ i) (σ j)) lam fun i k => V (σ i) k :=
  ⟨fun k hk l hl => (sum_re h fun i => V i k * V i l).trans (hE.1 k hk l hl),
    fun i hi k hk => (sum_re h fun j => C (σ i) j * V j k).trans (hE.2 (σ i) (h.1 i hi) k hk)⟩

private theorem cov_re {eps : ℝ} {ms : Bool} {cube : Arr3 (Option ℝ)} {x : ℕ → ℕ → ℝ} (hx : Spec.FullCube cube x) {σ : ℕ → ℕ}
    (h : Spec.Reorders σ cube.n) {i j : ℕ} (hi : i < cube.n) (hj : j < cube.n) :
    (varCovCube eps ms (reordered σ cube)).get i j = (varCovCube eps ms cube).get (σ i) (σ j) := by
  have hx' : Spec.FullCube (reordered σ cube) fun i => x (σ i) := ⟨hx.1, fun i hi r hr c hc => hx.2 (σ i) (h.1 i hi) r hr c hc⟩
  rw [C32_values eps ms (reordered σ cube) _ hx' i j hi hj, C32_values eps ms cube x hx _ _ (h.1 i hi) (h.1 j hj)]
  rfl

/-- **PCA.** For a cube without missing voxels the order of the channels changes neither the eigenvalues nor the number kept, the total or the
fraction of the variance; the covariance matrix is rearranged with the channels, and eigenvectors rearranged with them are eigenvectors. -/
theorem C119_pca (eps : ℝ) (ms : Bool) (cube : Arr3 (Option ℝ)) (x : ℕ → ℕ → ℝ) (hx : Spec.FullCube cube x) (σ : ℕ → ℕ)
    (h : Spec.Reorders σ cube.n) (lam lam' : ℕ → ℝ) (V V' : ℕ → ℕ → ℝ) (ord ord' : ℕ → ℕ)
    (hE : Spec.IsEigh cube.n (varCovCube eps ms cube).get lam V)
    (hE' : Spec.IsEigh cube.n (varCovCube eps ms (reordered σ cube)).get lam' V') (arg : NEigsArg) (me : Option ℝ) (cm : CutMethod) :
    (∀ i < cube.n, ∀ j < cube.n, (varCovCube eps ms (reordered σ cube)).get i j = (varCovCube eps ms cube).get (σ i) (σ j)) ∧
    Spec.IsEigh cube.n (varCovCube eps ms (reordered σ cube)).get lam (fun i k => V (σ i) k) ∧
    (computePca cube.n lam' V' ord' ms arg me cm).map (fun st => (st.eigvals, st.nEigs, st.total, st.varProp)) =
      (computePca cube.n lam V ord ms arg me cm).map (fun st => (st.eigvals, st.nEigs, st.total, st.varProp)) := by
  have hc := fun i hi j hj => cov_re (eps := eps) (ms := ms) hx h (i := i) (j := j) hi hj
  have h1 := eigh_re h hE
  have h2 : Spec.IsEigh cube.n (varCovCube eps ms (reordered σ cube)).get lam fun i k => V (σ i) k := by
    refine ⟨h1.1, fun i hi k hk => ?_⟩
    rw [← h1.2 i hi k hk]
    exact sum_congr rfl fun j hj => by rw [hc i hi j (mem_range.1 hj)]
  refine ⟨hc, h2, ?_⟩
  rw [C33_determined cube.n _ lam' lam V' _ ord' ord hE' h2 ms arg me cm]
  unfold computePca
  simp only [bind, Except.bind, pure, Except.pure]
  cases nEigsFor arg me cm (sortDesc ((List.range cube.n).map lam)) <;> rfl

/-- Two channels of two pixels; the second pixel of the first channel is missing. -/
def gapCube : Arr3 (Option ℝ) := ⟨2, 1, 2, fun k _ j => if k = 0 ∧ j = 1 then none else some 1⟩

private theorem char2 {C : ℕ → ℕ → ℝ} {lam : ℕ → ℝ} {V : ℕ → ℕ → ℝ} (hE : Spec.IsEigh 2 C lam V) {k : ℕ} (hk : k < 2) :
    (C 0 0 - lam k) * (C 1 1 - lam k) = C 0 1 * C 1 0 := by
  have hn := hE.1 k hk k hk
  have e1 := hE.2 0 (by norm_num) k hk
  have e2 := hE.2 1 (by norm_num) k hk
  simp only [sum_range_succ, sum_range_zero, zero_add, if_pos] at hn e1 e2
  have f1 : ((C 0 0 - lam k) * (C 1 1 - lam k) - C 0 1 * C 1 0) * V 0 k = 0 := by
    linear_combination (C 1 1 - lam k) * e1 - C 0 1 * e2
  have f2 : ((C 0 0 - lam k) * (C 1 1 - lam k) - C 0 1 * C 1 0) * V 1 k = 0 := by
    linear_combination (C 0 0 - lam k) * e2 - C 1 0 * e1
  linear_combination V 0 k * f1 + V 1 k * f2 - ((C 0 0 - lam k) * (C 1 1 - lam k) - C 0 1 * C 1 0) * hn

/-- **PCA, missing voxels.** With a missing voxel the direction of the spectral axis matters: the covariance of two channels takes the missing pixel as
the fill value in the later channel and leaves it out in the earlier one, so this cube and the reversed one have no eigenvalue in common. -/
theorem C119_pca_missing_violated (eps : ℝ) (he : |eps| < 1) (lam lam' : ℕ → ℝ) (V V' : ℕ → ℕ → ℝ)
    (hE : Spec.IsEigh 2 (varCovCube eps false gapCube).get lam V)
    (hE' : Spec.IsEigh 2 (varCovCube eps false (reversed gapCube)).get lam' V') : ∀ k < 2, ∀ l < 2, lam k ≠ lam' l := by
  intro k hk l hl e
  have h := char2 hE hk
  have h' := char2 hE' hl
  rw [← e] at h'
  have a1 := (abs_lt.1 he).1
  have a2 := (abs_lt.1 he).2
  simp [varCovCube, vcLower, vcEntry, vcCenter, vcFill, chanVec, vecCount, vecNansum, gapCube, reversed, reordered, sum_range_succ, addO, mulO, divO] at h h'
  have f1 : ¬ ∀ ⦃x : ℕ⦄, x ≤ 1 → x % 2 = 1 := fun h => by have := h (show 0 ≤ 1 by norm_num); norm_num at this
  have f2 : ¬ ∀ ⦃x : ℕ⦄, x ≤ 1 → 1 = 0 ∧ x % 2 = 1 := fun h => by have := (h (show 0 ≤ 1 by norm_num)).2; norm_num at this
  have f3 : (#({x ∈ range 2 | x % 2 = 0})) = 1 := by decide
  simp only [if_neg f1, f3, Option.getD_some, Nat.cast_one, inv_one] at h
  simp only [if_neg f2, Option.getD_some] at h'
  nlinarith

/-! ### Spectral widths -/

private theorem acor_period (n : ℕ) (v : ℕ → ℝ) (j : ℕ) : (acorSpec n v).get j = (acorSpec n v).get (j % n) := by
  unfold acorSpec idft1
  simp only
  congr 2
  apply sum_congr rfl
  intro k _
  congr 1
  apply om_congr
  have : (n : ℤ) ∣ (j : ℤ) - ((j % n : ℕ) : ℤ) := by
    push_cast
    exact ⟨(j : ℤ) / n, by linarith [Int.emod_add_mul_ediv (j : ℤ) n]⟩
  obtain ⟨q, hq⟩ := this
  refine ⟨-(q * k), ?_⟩
  push_cast at hq ⊢
  linear_combination (-(k : ℤ)) * hq

private theorem circ_rev {n : ℕ} (z : ℕ → ℝ) (s : ℤ) : Spec.circAcf1 n (fun i => z (n - 1 - i)) s = Spec.circAcf1 n z (-s) := by
  unfold Spec.circAcf1
  rw [← sum_range_reflect (fun b => z (((b : ℤ) + -s) % n).toNat * z b) n]
  apply sum_congr rfl
  intro b hb
  have hb := mem_range.1 hb
  congr 2
  have r0 := Int.emod_nonneg ((b : ℤ) + s) (show (n : ℤ) ≠ 0 by omega)
  have r1 := Int.emod_lt_of_pos ((b : ℤ) + s) (show (0 : ℤ) < n by omega)
  have hq := Int.emod_add_mul_ediv ((b : ℤ) + s) n
  set r := ((b : ℤ) + s) % n with hr
  set q := ((b : ℤ) + s) / n
  have : (((n - 1 - b : ℕ) : ℤ) + -s) % n = n - 1 - r := by
    rw [show ((n - 1 - b : ℕ) : ℤ) + -s = (n - 1 - r) + n * (-q) by
      rw [show ((n - 1 - b : ℕ) : ℤ) = (n : ℤ) - 1 - b by omega]; linear_combination hq]
    rw [Int.add_mul_emod_self_left]
    exact Int.emod_eq_of_lt (by omega) (by omega)
  rw [this]
  show z (n - 1 - r.toNat) = z (n - 1 - r).toNat
  congr 1
  omega

/-- **Spectral widths.** Eigenvectors that vanish in the first and last channel have the same autocorrelations and spectral widths when the channels are
reversed, by any method. Missing: eigenvectors that do not vanish there (`C119_widths_violated`). -/
theorem C119_widths_partial (fit : ℝ → List (ℝ × ℝ) → Option (ℝ × ℝ)) (n : ℕ) (hn : 0 < n) (V : ℕ → ℕ → ℝ) (k : ℕ) (m : Width1D)
    (h0 : ∀ q < k, V 0 q = 0 ∧ V (n - 1) q = 0) :
    (∀ q < k, acorSpec n (fun i => V (n - 1 - i) q) = acorSpec n fun i => V i q) ∧
    findSpectralWidths fit n (fun i q => V (n - 1 - i) q) k m = findSpectralWidths fit n V k m := by
  have key : ∀ q < k, acorSpec n (fun i => V (n - 1 - i) q) = acorSpec n fun i => V i q := by
    intro q hq
    obtain ⟨z0, z1⟩ := h0 q hq
    have hg : ∀ j < n, (acorSpec n (fun i => V (n - 1 - i) q)).get j = (acorSpec n fun i => V i q).get j := by
      intro j hj
      rw [C62_spectrum_partial n _ j hj, C62_spectrum_partial n _ j hj]
      have e1 : Spec.headless (fun i => V (n - 1 - i) q) = fun i => V (n - 1 - i) q := by
        funext i
        unfold Spec.headless
        split_ifs with hi
        · subst hi; exact z1.symm
        · rfl
      have e2 : Spec.headless (fun i => V i q) = fun i => V i q := by
        funext i
        unfold Spec.headless
        split_ifs with hi
        · subst hi; exact z0.symm
        · rfl
      rw [e1, e2, circ_rev (n := n) (fun i => V i q), circAcf1_neg hn]
    have : (acorSpec n (fun i => V (n - 1 - i) q)).get = (acorSpec n fun i => V i q).get := by
      funext j
      rw [acor_period n _ j, hg _ (Nat.mod_lt _ hn), ← acor_period n]
    exact congrArg (fun g => (⟨n, g⟩ : Arr1 ℝ)) this
  refine ⟨key, ?_⟩
  unfold findSpectralWidths
  have : autocorrSpec n (fun i q => V (n - 1 - i) q) k = autocorrSpec n V k := by
    match k, key with
    | 0, _ => rfl
    | 1, _ => rfl
    | k + 2, key =>
      exact congrArg Except.ok <| List.map_congr_left fun q hq => key q (List.mem_range.1 hq)
  rw [this]

/-- **Spectral widths, end channels.** Otherwise the width may change: the autocorrelation leaves out the first channel of the eigenvector. A unit vector in the
first two of four channels has a width below one channel, and reversed a width of at least one channel. -/
theorem C119_widths_violated : ∃ v : ℕ → ℝ, ∑ i ∈ range 4, v i ^ 2 = 1 ∧ ∃ w w', walkDown (acorSpec 4 v) = .ok (some (w, 0.5)) ∧
    walkDown (acorSpec 4 fun i => v (4 - 1 - i)) = .ok (some (w', 0.5)) ∧ w < 1 ∧ 1 ≤ w' := by
  have he : Real.exp (-1) < 1 / 2 := by
    have := Real.exp_one_gt_d9
    rw [Real.exp_neg, inv_lt_comm₀ (Real.exp_pos 1) (by norm_num)]
    norm_num
    linarith
  have hp := Real.exp_pos (-1)
  have hs : (Real.sqrt 2)⁻¹ * (Real.sqrt 2)⁻¹ = 1 / 2 := by
    rw [← mul_inv, Real.mul_self_sqrt (by norm_num)]; norm_num
  set s := (Real.sqrt 2)⁻¹ with hsd
  let v : ℕ → ℝ := fun i => if i < 2 then s else 0
  have g : ∀ j < 4, (acorSpec 4 v).get j = if j = 0 then 1 / 2 else 0 := by
    intro j hj
    rw [C62_spectrum_partial 4 v j hj]
    unfold Spec.circAcf1 Spec.headless
    interval_cases j <;> simp [sum_range_succ, v, hs]
  have g' : ∀ j < 4, (acorSpec 4 fun i => v (4 - 1 - i)).get j = if j = 0 then 1 else if j = 2 then 0 else 1 / 2 := by
    intro j hj
    rw [C62_spectrum_partial 4 _ j hj]
    unfold Spec.circAcf1 Spec.headless
    interval_cases j <;> simp [sum_range_succ, v, hs] <;> norm_num [hs]
  obtain ⟨w, hw, _, hw2, _⟩ := (C37_eigenspectra 4 (by norm_num) v).2 1 ⟨by norm_num, by
    rw [g 1 (by norm_num), g 0 (by norm_num)]; norm_num; linarith, fun j hj => by
    rw [g 0 (by norm_num), g j (by omega), if_pos rfl, if_pos (by omega)]; nlinarith⟩
  obtain ⟨w', hw', hw3, _, _⟩ := (C37_eigenspectra 4 (by norm_num) fun i => v (4 - 1 - i)).2 2 ⟨by norm_num, by
    rw [g' 2 (by norm_num), g' 0 (by norm_num)]; norm_num; linarith, fun j hj => by
    rw [g' 0 (by norm_num), g' j (by omega)]
    interval_cases j <;> norm_num <;> linarith⟩
  refine ⟨v, ?_, w, w', hw, hw', by simpa using hw2, by norm_num at hw3; linarith⟩
  simp [sum_range_succ, v, pow_two, hs]
  norm_num

/-! ### Units and channel widths -/

/-- **Units.** The sign of the channel width in the header does not matter for any conversion between channels and spectral units, nor for the channels that
VCS fits. -/
theorem C119_units (a : ChanAxis) :
    let h : SpecHeader := some (some a)
    let h' : SpecHeader := some (some { a with cd := -a.cd })
    (∀ v src dst, toSpectral h' v src dst = toSpectral h v src dst) ∧ (∀ v src dst, toSpectralFreq h' v src dst = toSpectralFreq h v src dst) ∧
    (∀ n low high f, vcsFittedUnits h' n low high f = vcsFittedUnits h n low high f) ∧
    ∀ ws u, spectralWidth h' ws u = spectralWidth h ws u := by
  have e : ∀ v src dst, toSpectral (some (some { a with cd := -a.cd })) v src dst = toSpectral (some (some a)) v src dst := by
    intro v src dst
    unfold toSpectral spectralSize
    simp only [abs_neg]
  have e2 : ∀ v src dst, toSpectralFreq (some (some { a with cd := -a.cd })) v src dst = toSpectralFreq (some (some a)) v src dst := by
    intro v src dst
    unfold toSpectralFreq
    rw [e]
  have e3 : ∀ c, vcsCut (some (some { a with cd := -a.cd })) c = vcsCut (some (some a)) c := by
    intro c
    cases c with
    | none => rfl
    | some c => unfold vcsCut; simp only [e2]
  refine ⟨e, e2, fun n low high f => ?_, fun ws u => ?_⟩
  · unfold vcsFittedUnits
    rw [e3, e3]
  · unfold spectralWidth
    simp only [e]

namespace Spec

/-- The spectral axis the other way round. -/
def SpecAxis.rev (ax : SpecAxis) : SpecAxis := { ax with s0 := ax.get (ax.n - 1), d := -ax.d }

/-- What a regridding of the reversed cube should be. -/
def RevResult : RegridResult → RegridResult → Prop
  | .same, .same => True
  | .factor k, .factor k' => k' = k
  | .axis a, .axis a' => a'.n = a.n ∧ ∀ k < a.n, a'.get k = a.get (a.n - 1 - k)
  | _, _ => False

end Spec

/-- **Channel widths.** On a reversed axis `spectral_regrid_cube` fails in the same cases, averages the same number of channels, or makes the same new axis in
the opposite order. -/
theorem C119_regrid (isCube : Bool) (ax : SpecAxis) (hd : ax.d ≠ 0) (w : WidthArg) (m : RegridMethod) :
    (∀ r, spectralRegrid isCube ax w m = .ok r → ∃ r', spectralRegrid isCube (Spec.SpecAxis.rev ax) w m = .ok r' ∧ Spec.RevResult r r') ∧
    ∀ e, spectralRegrid isCube ax w m = .error e → spectralRegrid isCube (Spec.SpecAxis.rev ax) w m = .error e := by
  have step : chanStep (Spec.SpecAxis.rev ax) = (chanStep ax).map fun x => -x := by
    unfold chanStep Spec.SpecAxis.rev SpecAxis.get
    split_ifs
    · rfl
    · simp only [Except.map]; congr 1; push_cast; ring
  have fac : downsampleFactor (Spec.SpecAxis.rev ax) w = downsampleFactor ax w := by
    cases w <;> simp only [downsampleFactor, step] <;> cases chanStep ax <;>
      simp only [Except.map, bind, Except.bind, pure, Except.pure, abs_neg]
  have dif : diffFactor (Spec.SpecAxis.rev ax) w = diffFactor ax w := by
    cases w <;> simp only [diffFactor, step] <;> cases chanStep ax <;>
      simp only [Except.map, bind, Except.bind, pure, Except.pure, mul_neg, div_neg, abs_neg]
    · rw [neg_div, abs_neg]
    · rfl
  have get_rev : ∀ k < ax.n, (Spec.SpecAxis.rev ax).get k = ax.get (ax.n - 1 - k) := by
    intro k hk
    unfold Spec.SpecAxis.rev SpecAxis.get
    simp only
    rw [Nat.cast_sub (by omega : k ≤ ax.n - 1)]
    ring
  have lst : (Spec.SpecAxis.rev ax).toList.Perm ax.toList := by
    have : (Spec.SpecAxis.rev ax).toList = ax.toList.reverse := by
      unfold SpecAxis.toList
      apply List.ext_getElem
      · simp [Spec.SpecAxis.rev]
      · intro k h1 h2
        have hk : k < ax.n := by simpa [Spec.SpecAxis.rev] using h1
        simp only [List.getElem_map, List.getElem_range, List.getElem_reverse, List.length_map, List.length_range]
        exact get_rev k hk
    rw [this]
    exact List.reverse_perm _
  have axs : ∀ f, (regridAxis (Spec.SpecAxis.rev ax) f).n = (regridAxis ax f).n ∧
      ∀ k < (regridAxis ax f).n, (regridAxis (Spec.SpecAxis.rev ax) f).get k = (regridAxis ax f).get ((regridAxis ax f).n - 1 - k) := by
    intro f
    have d1 : ax.get 1 - ax.get 0 = ax.d := by unfold SpecAxis.get; push_cast; ring
    have d2 : (Spec.SpecAxis.rev ax).get 1 - (Spec.SpecAxis.rev ax).get 0 = -ax.d := by
      unfold Spec.SpecAxis.rev SpecAxis.get; push_cast; ring
    have hn : (Spec.SpecAxis.rev ax).n = ax.n := rfl
    unfold regridAxis
    simp only [minO_perm lst, maxO_perm lst, d1, d2, hn]
    rcases lt_or_gt_of_ne hd with h | h
    · rw [if_pos h, if_neg (show ¬ -ax.d < 0 by linarith)]
      refine ⟨rfl, fun k hk => ?_⟩
      simp only at hk ⊢
      rw [show ∀ N : ℕ, k < N → N - 1 - (N - 1 - k) = k from fun N h => by omega]
      exact hk
    · rw [if_neg (show ¬ ax.d < 0 by linarith), if_pos (show -ax.d < 0 by linarith)]
      exact ⟨rfl, fun k hk => rfl⟩
  unfold spectralRegrid
  cases isCube with
  | false => exact ⟨fun r h => by simp at h, fun e h => by simpa using h⟩
  | true =>
    simp only [Bool.true_eq_false, if_false]
    cases m with
    | unknown => exact ⟨fun r h => (by cases h), fun e h => h⟩
    | downsample =>
      simp only [fac]
      refine ⟨fun r h => ⟨r, h, ?_⟩, fun e h => h⟩
      cases hf : downsampleFactor ax w with
      | error e => rw [hf] at h; cases h
      | ok k => rw [hf] at h; cases h; rfl
    | regrid =>
      unfold regridBy
      simp only [dif, bind, Except.bind]
      cases hf : diffFactor ax w with
      | error e => exact ⟨fun r h => (by cases h), fun e h => h⟩
      | ok f =>
        simp only
        split_ifs with h1 h2
        · exact ⟨fun r h => ⟨_, rfl, by cases h; trivial⟩, fun e h => by cases h⟩
        · exact ⟨fun r h => (by cases h), fun e h => h⟩
        · exact ⟨fun r h => ⟨_, rfl, by cases h; exact axs f⟩, fun e h => by cases h⟩

private theorem nanmean_rev (l : List (Option ℝ)) : nanmean l.reverse = nanmean l := by
  unfold nanmean meanO validVals
  rw [List.filterMap_reverse, List.sum_reverse, List.length_reverse]
  simp only [List.reverse_eq_nil_iff]

/-- **Averaged channels.** When the number of channels is a multiple of the factor, averaging reversed spectra gives the reversed averages. Missing: other
factors (`C119_downsample_violated`). -/
theorem C119_downsample_partial (est : List (Option ℝ) → Option ℝ) (q f : ℕ) (x : ℕ → Option ℝ) (k : ℕ) (hk : k < q) :
    downsampleSpectrum est (q * f) (fun c => x (q * f - 1 - c)) f k = downsampleSpectrum est (q * f) x f (q - 1 - k) := by
  unfold downsampleSpectrum
  have full : ∀ k < q, (List.range f).filter (fun j => decide (k * f + j < q * f)) = List.range f := by
    intro k hk
    rw [List.filter_eq_self]
    intro j hj
    have := List.mem_range.1 hj
    have h2 : (k + 1) * f ≤ q * f := Nat.mul_le_mul_right f (by omega)
    simp only [decide_eq_true_eq]
    linarith
  rw [full k hk, full (q - 1 - k) (by omega), ← nanmean_rev ((List.range f).map fun j => x ((q - 1 - k) * f + j))]
  congr 1
  apply List.ext_getElem
  · simp
  · intro j h1 h2
    have hj : j < f := by simpa using h1
    simp only [List.getElem_map, List.getElem_range, List.getElem_reverse, List.length_map, List.length_range]
    congr 1
    have h3 : (q - 1 - k) * f = q * f - f - k * f := by
      rw [Nat.sub_mul, Nat.sub_mul, one_mul]
    have h4 : (k + 1) * f ≤ q * f := Nat.mul_le_mul_right f (by omega)
    rw [add_mul, one_mul] at h4
    omega

/-- Three channels of 2 × 2 pixels: nothing, nothing, ones. -/
def tailCube : Arr3 (Option ℝ) := ⟨3, 2, 2, fun k _ _ => some (if k = 2 then 1 else 0)⟩

/-- **Averaged channels, remainder.** Otherwise the short run is at the last channel whichever way the axis points, and the VCA of a cube with a channel width
depends on the direction: three channels averaged by twos have four times the power at zero frequency that the reversed cube has. -/
theorem C119_downsample_violated (smooth : Arr1 ℝ → Arr3 (Option ℝ) → Arr3 (Option ℝ)) (ax : SpecAxis) (est : List (Option ℝ) → Option ℝ) :
    ∃ d d' ps ps', vcaNew smooth ax ⟨.downsample, est⟩ tailCube (some (.int 2)) = .ok d ∧ vcaPspecNd d = .ok (.two ps) ∧
      vcaNew smooth (Spec.SpecAxis.rev ax) ⟨.downsample, est⟩ (reversed tailCube) (some (.int 2)) = .ok d' ∧ vcaPspecNd d' = .ok (.two ps') ∧
      ps.get 1 1 = 32 ∧ ps'.get 1 1 = 8 := by
  have hc : ProperCube tailCube := by simp [ProperCube, tailCube]
  have hc' : ProperCube (reversed tailCube) := by simp [ProperCube, tailCube, reversed, reordered]
  obtain ⟨d, ps, h1, h2, h3⟩ := C105_width_partial smooth ax est tailCube hc 2 (by norm_num) (by simp [tailCube])
  obtain ⟨d', ps', h1', h2', h3'⟩ := C105_width_partial smooth (Spec.SpecAxis.rev ax) est (reversed tailCube) hc' 2 (by norm_num)
    (by simp [tailCube, reversed, reordered])
  have hom : om 2 0 = 1 := by simp [om]
  refine ⟨d, d', ps, ps', h1, h2, h1', h2', ?_, ?_⟩
  · rw [h3.2.2 1 (by show 1 < 2; norm_num) 1 (by show 1 < 2; norm_num)]
    simp [thickCube, blockVals, tailCube, power2, channel, dft2, sum_range_succ, List.range_succ, hom]
    norm_num
  · rw [h3'.2.2 1 (by show 1 < 2; norm_num) 1 (by show 1 < 2; norm_num)]
    simp [thickCube, blockVals, tailCube, reversed, reordered, power2, channel, dft2, sum_range_succ, List.range_succ, hom]
    norm_num

/-! ### Non-vacuity -/

/-- A cyclic shift of three channels is a rearrangement too, and not the identity. -/
example : Spec.Reorders (fun k => (k + 1) % 3) 3 ∧ (reordered (fun k => (k + 1) % 3) tailCube).get 1 0 0 = some 1 ∧ tailCube.get 1 0 0 = some 0 := by
  refine ⟨⟨fun k hk => Nat.mod_lt _ (by norm_num), fun k hk l hl h => by have : (k + 1) % 3 = (l + 1) % 3 := h; omega⟩, ?_, ?_⟩ <;>
    simp [reordered, tailCube]

/-- `C119_pca` applies to it: no voxel is missing, and `eigh` has a result for the cube and for the reversed one. -/
example (eps : ℝ) (ms : Bool) : Spec.FullCube tailCube (fun k _ => if k = 2 then 1 else 0) ∧ Spec.Reorders (fun k => 3 - 1 - k) tailCube.n ∧
    (∃ lam V, Spec.IsEigh 3 (varCovCube eps ms tailCube).get lam V) ∧ ∃ lam V, Spec.IsEigh 3 (varCovCube eps ms (reversed tailCube)).get lam V := by
  refine ⟨⟨by simp [tailCube], fun i _ r _ c _ => rfl⟩, C119_reversal 3, ?_, ?_⟩
  · obtain ⟨lam, V, _, h, _⟩ := C33_contracts_met eps ms tailCube; exact ⟨lam, V, h⟩
  · obtain ⟨lam, V, _, h, _⟩ := C33_contracts_met eps ms (reversed tailCube); exact ⟨lam, V, h⟩

/-- So does `C119_pca_missing_violated`: both cubes have eigenvalues. -/
example (eps : ℝ) : (∃ lam V, Spec.IsEigh 2 (varCovCube eps false gapCube).get lam V) ∧
    ∃ lam V, Spec.IsEigh 2 (varCovCube eps false (reversed gapCube)).get lam V := by
  constructor
  · obtain ⟨lam, V, _, h, _⟩ := C33_contracts_met eps false gapCube; exact ⟨lam, V, h⟩
  · obtain ⟨lam, V, _, h, _⟩ := C33_contracts_met eps false (reversed gapCube); exact ⟨lam, V, h⟩

/-- `C119_vca` applies to a cube with and without a window: without one the spectrum always exists. -/
example : ∃ ps, vcaComputePspec (fillNan3 0 tailCube) none = .ok ps := by
  obtain ⟨ps, h, _⟩ := C03_vca_channel_sum (fillNan3 0 tailCube) (by simp [fillNan3, Arr3.map, tailCube]) (by simp [fillNan3, Arr3.map, tailCube])
    (by simp [fillNan3, Arr3.map, tailCube])
  exact ⟨ps, h⟩

/-- `C119_widths_partial` has an eigenvector that is not symmetric: `(0, 1, 0, 0)`. -/
example : ∀ q < 2, (fun i (_ : ℕ) => if i = 1 then (1 : ℝ) else 0) 0 q = 0 ∧ (fun i (_ : ℕ) => if i = 1 then (1 : ℝ) else 0) (4 - 1) q = 0 := by
  intro q _; constructor <;> simp

/-- `C119_regrid` has a case with a new axis: ten channels, a width of two. -/
example : ∃ a, spectralRegrid true ⟨10, 0, 1, 1⟩ (.pix 2) .regrid = .ok (.axis a) := by
  refine ⟨regridAxis ⟨10, 0, 1, 1⟩ 2, ?_⟩
  simp [spectralRegrid, regridBy, diffFactor, chanStep, SpecAxis.get, bind, Except.bind, pure, Except.pure]

end TS
