import Verif.Model.Bispec
import Verif.Lemmas.Fourier
import Verif.Spec.Fourier
import Mathlib.Tactic.Linarith
import Mathlib.Tactic.FieldSimp

/-! C46 — bicoherence: range, scaling, sample bookkeeping. -/

namespace TS
open Finset

namespace Spec

/-- Fourier transform of a real image at an integer wave vector. -/
noncomputable def ft (n m : ℕ) (f : ℕ → ℕ → ℝ) (k : ℤ × ℤ) : ℂ := dft2 n m (fun i j => (f i j : ℂ)) k.1 k.2

/-- `F(k1) F(k2) conj F(k3)`. -/
noncomputable def triple (n m : ℕ) (f : ℕ → ℕ → ℝ) (t : Triangle) : ℂ :=
  ft n m f t.k1 * ft n m f t.k2 * (starRingEnd ℂ) (ft n m f t.k3)

/-- The transform's index range contains the wave vector. -/
def InRange (n m : ℕ) (k : ℤ × ℤ) : Prop := (-(n : ℤ) ≤ k.1 ∧ k.1 < n) ∧ -(m : ℤ) ≤ k.2 ∧ k.2 < m

end Spec
open Spec

/-- The image the transform is taken of. -/
noncomputable def bispecImage (img : Arr2 ℝ) (meanSubtract : Bool) : ℕ → ℕ → ℝ := fun i j =>
  if meanSubtract then img.get i j - (∑ i ∈ range img.n, ∑ j ∈ range img.m, img.get i j) / ((img.n * img.m : ℕ) : ℝ)
  else img.get i j

theorem npIdx_ok {n : ℕ} {i : ℤ} (h : -(n : ℤ) ≤ i ∧ i < n) : npIdx n i = .ok (i % n).toNat := if_pos h

theorem npIdx_err {n : ℕ} {i : ℤ} (h : ¬ (-(n : ℤ) ≤ i ∧ i < n)) : npIdx n i = .error .indexError := if_neg h

private theorem fftAt_ok {n m : ℕ} (f : ℕ → ℕ → ℝ) {k : ℤ × ℤ} (h : InRange n m k) :
    fftAt ⟨n, m, fun k l => dft2 n m (fun i j => (f i j : ℂ)) k l⟩ k = .ok (ft n m f k) := by
  obtain ⟨h1, h2⟩ := h
  have hn : 0 < n := by omega
  have hm : 0 < m := by omega
  unfold fftAt
  simp only [npIdx_ok h1, npIdx_ok h2, bind, Except.bind, pure, Except.pure]
  congr 1
  unfold ft
  apply dft2_congr_freq
  · have : 0 ≤ k.1 % (n : ℤ) := Int.emod_nonneg _ (by omega)
    rw [Int.toNat_of_nonneg this]
    exact ⟨-(k.1 / n), by have := Int.emod_add_mul_ediv k.1 n; linarith⟩
  · have : 0 ≤ k.2 % (m : ℤ) := Int.emod_nonneg _ (by omega)
    rw [Int.toNat_of_nonneg this]
    exact ⟨-(k.2 / m), by have := Int.emod_add_mul_ediv k.2 m; linarith⟩

private theorem sample_ok {n m : ℕ} (f : ℕ → ℕ → ℝ) {t : Triangle} (h1 : InRange n m t.k1) (h2 : InRange n m t.k2)
    (h3 : InRange n m t.k3) :
    bispecSample ⟨n, m, fun k l => dft2 n m (fun i j => (f i j : ℂ)) k l⟩ t = .ok (triple n m f t) := by
  unfold bispecSample
  simp only [fftAt_ok f h1, fftAt_ok f h2, fftAt_ok f h3, bind, Except.bind, pure, Except.pure]
  rfl

private theorem samples_ok {n m : ℕ} (f : ℕ → ℕ → ℝ) (k1 k2 : ℕ) (draws : List (ℝ × ℝ))
    (h : ∀ phi, InRange n m (triangle k1 k2 phi).k1 ∧ InRange n m (triangle k1 k2 phi).k2 ∧
      InRange n m (triangle k1 k2 phi).k3) :
    bispecSamples ⟨n, m, fun k l => dft2 n m (fun i j => (f i j : ℂ)) k l⟩ k1 k2 draws =
      .ok (draws.map (fun phi => triple n m f (triangle k1 k2 phi))) := by
  unfold bispecSamples
  induction draws with
  | nil => rfl
  | cons a l ih =>
    rw [List.mapM_cons, sample_ok f (h a).1 (h a).2.1 (h a).2.2, ih]
    rfl

/-- Truncation toward zero does not enlarge. -/
theorem pyInt_abs_le {x : ℝ} {b : ℕ} (h : |x| ≤ b) : -(b : ℤ) ≤ pyInt x ∧ pyInt x ≤ b := by
  have h' := abs_le.1 h
  unfold pyInt
  split_ifs with h0
  · constructor
    · have : (0 : ℤ) ≤ ⌊x⌋ := Int.floor_nonneg.2 h0
      omega
    · have : (⌊x⌋ : ℝ) ≤ ((b : ℤ) : ℝ) := (Int.floor_le x).trans (by exact_mod_cast h'.2)
      exact_mod_cast this
  · push Not at h0
    constructor
    · have : ((-(b : ℤ) : ℤ) : ℝ) ≤ (⌈x⌉ : ℝ) := le_trans (by push_cast; exact h'.1) (Int.le_ceil x)
      exact_mod_cast this
    · have : ⌈x⌉ ≤ 0 := Int.ceil_le.2 (by exact_mod_cast h0.le)
      omega

private theorem mul_trig_le (k : ℕ) {c : ℝ} (h : |c| ≤ 1) : |(k : ℝ) * c| ≤ k := by
  rw [abs_mul, Nat.abs_cast]
  exact mul_le_of_le_one_right (Nat.cast_nonneg k) h

private theorem square_range {n : ℕ} {k1 k2 : ℕ} (h1 : k1 < n / 2) (h2 : k2 < n / 2) (phi : ℝ × ℝ) :
    InRange n n (triangle k1 k2 phi).k1 ∧ InRange n n (triangle k1 k2 phi).k2 ∧
      InRange n n (triangle k1 k2 phi).k3 := by
  have c1 := mul_trig_le k1 (Real.abs_cos_le_one phi.1)
  have s1 := mul_trig_le k1 (Real.abs_sin_le_one phi.1)
  have c2 := mul_trig_le k2 (Real.abs_cos_le_one phi.2)
  have s2 := mul_trig_le k2 (Real.abs_sin_le_one phi.2)
  have c3 : |(k1 : ℝ) * Real.cos phi.1 + k2 * Real.cos phi.2| ≤ ((k1 + k2 : ℕ) : ℝ) := by
    push_cast; exact (abs_add_le _ _).trans (add_le_add c1 c2)
  have s3 : |(k1 : ℝ) * Real.sin phi.1 + k2 * Real.sin phi.2| ≤ ((k1 + k2 : ℕ) : ℝ) := by
    push_cast; exact (abs_add_le _ _).trans (add_le_add s1 s2)
  have := pyInt_abs_le c1
  have := pyInt_abs_le s1
  have := pyInt_abs_le c2
  have := pyInt_abs_le s2
  have := pyInt_abs_le c3
  have := pyInt_abs_le s3
  unfold InRange triangle
  simp only
  omega

/-- For square images every draw is inside the transform, and bin `(k1, k2)` holds the sum of
`F(k1) F(k2) conj F(k3)` over the draws, its modulus divided by the sum of moduli being the bicoherence. -/
theorem C46_square (img : Arr2 ℝ) (hsq : img.n = img.m) (ms : Bool) (draws : ℕ → ℕ → List (ℝ × ℝ)) :
    ∃ o, computeBispectrum img ms draws = .ok o ∧
      o.bispectrum.n = img.n / 2 ∧ o.bispectrum.m = img.m / 2 ∧
      o.bicoherence.n = img.n / 2 ∧ o.bicoherence.m = img.m / 2 ∧
      ∀ k1 < img.n / 2, ∀ k2 < img.m / 2,
        let samps := (draws k1 k2).map (fun phi => triple img.n img.m (bispecImage img ms) (triangle k1 k2 phi))
        o.bispectrum.get k1 k2 = samps.sum ∧
        o.bicoherence.get k1 k2 = if (samps.map (fun z => ‖z‖)).sum = 0 then none
          else some (‖samps.sum‖ / (samps.map (fun z => ‖z‖)).sum) := by
  have hall : ∀ k1 < img.n / 2, ∀ k2 < img.m / 2, bispecSamples (bispecFft img ms) k1 k2 (draws k1 k2) =
      .ok ((draws k1 k2).map (fun phi => triple img.n img.m (bispecImage img ms) (triangle k1 k2 phi))) := by
    intro k1 h1 k2 h2
    apply samples_ok
    intro phi
    have := square_range h1 (by rw [hsq]; exact h2) phi
    rw [← hsq]
    exact this
  unfold computeBispectrum
  simp only
  rw [if_neg]
  · refine ⟨_, rfl, rfl, rfl, rfl, rfl, ?_⟩
    intro k1 h1 k2 h2
    simp only [hall k1 h1 k2 h2]
    refine ⟨trivial, ?_⟩
    simp only [bicohOf, divO, bind, Option.bind]
  · rintro ⟨k1, h1, k2, h2, e, he⟩
    rw [hall k1 h1 k2 h2] at he
    cases he

example : (⟨6, 6, fun i j => (i : ℝ) + j⟩ : Arr2 ℝ).n = (⟨6, 6, fun i j => (i : ℝ) + j⟩ : Arr2 ℝ).m := rfl

private theorem norm_sum_le_list (l : List ℂ) : ‖l.sum‖ ≤ (l.map (fun z => ‖z‖)).sum := by
  induction l with
  | nil => simp
  | cons a l ih =>
    rw [List.sum_cons, List.map_cons, List.sum_cons]
    exact (norm_add_le _ _).trans (by linarith)

private theorem sum_norm_nonneg (l : List ℂ) : 0 ≤ (l.map (fun z => ‖z‖)).sum := by
  apply List.sum_nonneg
  intro x hx
  obtain ⟨z, _, rfl⟩ := List.mem_map.1 hx
  exact norm_nonneg z

/-- For any image and any draws: wherever the bicoherence is a number it lies in [0, 1]. -/
theorem C46_range (img : Arr2 ℝ) (ms : Bool) (draws : ℕ → ℕ → List (ℝ × ℝ)) (o : BispecOut)
    (h : computeBispectrum img ms draws = .ok o) (k1 k2 : ℕ) (v : ℝ) (hv : o.bicoherence.get k1 k2 = some v) :
    0 ≤ v ∧ v ≤ 1 := by
  have key : ∀ l : List ℂ, bicohOf l = some v → 0 ≤ v ∧ v ≤ 1 := by
    intro l hl
    unfold bicohOf divO at hl
    simp only [bind, Option.bind] at hl
    split_ifs at hl with h0
    cases hl
    have hp : 0 < (l.map (fun z => ‖z‖)).sum := lt_of_le_of_ne (sum_norm_nonneg l) (Ne.symm h0)
    exact ⟨div_nonneg (norm_nonneg _) hp.le, (div_le_one hp).2 (norm_sum_le_list l)⟩
  unfold computeBispectrum at h
  simp only at h
  split_ifs at h
  cases h
  exact key _ hv

/-- The bicoherence is undefined exactly in bins all of whose samples vanish. -/
theorem C46_defined (img : Arr2 ℝ) (hsq : img.n = img.m) (ms : Bool) (draws : ℕ → ℕ → List (ℝ × ℝ)) (o : BispecOut)
    (h : computeBispectrum img ms draws = .ok o) (k1 k2 : ℕ) (h1 : k1 < img.n / 2) (h2 : k2 < img.m / 2) :
    o.bicoherence.get k1 k2 = none ↔
      ∀ phi ∈ draws k1 k2, triple img.n img.m (bispecImage img ms) (triangle k1 k2 phi) = 0 := by
  obtain ⟨o', h', _, _, _, _, hv⟩ := C46_square img hsq ms draws
  rw [h] at h'; cases h'
  rw [(hv k1 h1 k2 h2).2]
  have key : ∀ l : List ℂ, (l.map (fun z => ‖z‖)).sum = 0 ↔ ∀ z ∈ l, z = 0 := by
    intro l
    induction l with
    | nil => simp
    | cons a l ih =>
      rw [List.map_cons, List.sum_cons]
      have := norm_nonneg a
      have := sum_norm_nonneg l
      constructor
      · intro h
        have ha : ‖a‖ = 0 := by linarith
        have hl : (l.map (fun z => ‖z‖)).sum = 0 := by linarith
        intro z hz
        rcases List.mem_cons.1 hz with rfl | hz
        · exact norm_eq_zero.1 ha
        · exact ih.1 hl z hz
      · intro h
        rw [h a (by simp), ih.2 (fun z hz => h z (List.mem_cons_of_mem _ hz))]
        simp
  split_ifs with h0
  · simp only [true_iff]
    intro phi hphi
    exact (key _).1 h0 _ (List.mem_map_of_mem hphi)
  · refine ⟨fun hh => (by cases hh), fun hh => ?_⟩
    exfalso
    apply h0
    rw [key]
    intro z hz
    obtain ⟨phi, hphi, rfl⟩ := List.mem_map.1 hz
    exact hh phi hphi

private theorem triple_scale (n m : ℕ) (c : ℝ) (f : ℕ → ℕ → ℝ) (t : Triangle) :
    triple n m (fun i j => c * f i j) t = (c : ℂ) ^ 3 * triple n m f t := by
  have : ∀ k, ft n m (fun i j => c * f i j) k = (c : ℂ) * ft n m f k := by
    intro k
    unfold ft
    have : (fun i j => ((c * f i j : ℝ) : ℂ)) = fun i j => (c : ℂ) * (f i j : ℂ) := by funext i j; push_cast; rfl
    rw [this, dft2_const_mul]
  unfold triple
  simp only [this, map_mul, Complex.conj_ofReal]
  ring

/-- Multiplying the image by `c ≠ 0` multiplies the bispectrum by `c³` and leaves the bicoherence. -/
theorem C46_scale (img : Arr2 ℝ) (hsq : img.n = img.m) (ms : Bool) (draws : ℕ → ℕ → List (ℝ × ℝ)) (c : ℝ) (hc : c ≠ 0) :
    ∃ o o', computeBispectrum img ms draws = .ok o ∧ computeBispectrum (scale2 c img) ms draws = .ok o' ∧
      ∀ k1 < img.n / 2, ∀ k2 < img.m / 2,
        o'.bispectrum.get k1 k2 = (c : ℂ) ^ 3 * o.bispectrum.get k1 k2 ∧
        o'.bicoherence.get k1 k2 = o.bicoherence.get k1 k2 := by
  obtain ⟨o, h, _, _, _, _, hv⟩ := C46_square img hsq ms draws
  obtain ⟨o', h', _, _, _, _, hv'⟩ := C46_square (scale2 c img) hsq ms draws
  refine ⟨o, o', h, h', ?_⟩
  intro k1 h1 k2 h2
  obtain ⟨a, b⟩ := hv k1 h1 k2 h2
  obtain ⟨a', b'⟩ := hv' k1 h1 k2 h2
  have him : bispecImage (scale2 c img) ms = fun i j => c * bispecImage img ms i j := by
    funext i j
    unfold bispecImage scale2
    simp only [← mul_sum]
    split_ifs
    · ring
    · rfl
  have hs : (draws k1 k2).map (fun phi => triple (scale2 c img).n (scale2 c img).m (bispecImage (scale2 c img) ms)
      (triangle k1 k2 phi)) = ((draws k1 k2).map (fun phi => triple img.n img.m (bispecImage img ms)
      (triangle k1 k2 phi))).map (fun z => (c : ℂ) ^ 3 * z) := by
    rw [him, List.map_map]
    apply List.map_congr_left
    intro phi _
    exact triple_scale _ _ _ _ _
  rw [hs] at a' b'
  set l := (draws k1 k2).map (fun phi => triple img.n img.m (bispecImage img ms) (triangle k1 k2 phi)) with hl
  have e1 : (l.map (fun z => (c : ℂ) ^ 3 * z)).sum = (c : ℂ) ^ 3 * l.sum := List.sum_map_mul_left l (fun z => z) _ |>.trans (by simp)
  have hn : ‖(c : ℂ) ^ 3‖ ≠ 0 := by simp [hc]
  have e2 : ((l.map (fun z => (c : ℂ) ^ 3 * z)).map (fun z => ‖z‖)).sum = ‖(c : ℂ) ^ 3‖ * (l.map (fun z => ‖z‖)).sum := by
    rw [List.map_map]
    have : ((fun z => ‖z‖) ∘ fun z => (c : ℂ) ^ 3 * z) = fun z => ‖(c : ℂ) ^ 3‖ * ‖z‖ := by
      funext z; simp only [Function.comp, norm_mul]
    rw [this]
    exact List.sum_map_mul_left l (fun z => ‖z‖) _
  refine ⟨by rw [a', e1, a], ?_⟩
  rw [b', b, e1, e2, norm_mul]
  by_cases h0 : (l.map (fun z => ‖z‖)).sum = 0
  · rw [if_pos h0, if_pos (by rw [h0, mul_zero])]
  · rw [if_neg h0, if_neg (mul_ne_zero hn h0), mul_div_mul_left _ _ hn]

/-- The tracker never exceeds the number of samples accumulated at a wave vector. Missing: the tracker should equal that number
(`C46_tracker_undercounts`). -/
theorem C46_tracker_partial (n m k1 k2 : ℕ) (draws : List (ℝ × ℝ)) (i j : ℕ) :
    trackerAdd n m k1 k2 draws i j ≤
      (draws.map (fun phi =>
        let t := triangle k1 k2 phi
        ([t.k1, t.k2, t.k3].filter (fun k : ℤ × ℤ => decide ((k.1 % (n : ℤ)).toNat = i ∧ (k.2 % (m : ℤ)).toNat = j))).length)).sum := by
  have key : ∀ (sel : Triangle → ℤ × ℤ),
      (if draws.any (fun phi => decide (((sel (triangle k1 k2 phi)).1 % n).toNat = i ∧
        ((sel (triangle k1 k2 phi)).2 % m).toNat = j)) then 1 else 0) ≤
      (draws.map (fun phi => if ((sel (triangle k1 k2 phi)).1 % n).toNat = i ∧
        ((sel (triangle k1 k2 phi)).2 % m).toNat = j then 1 else 0)).sum := by
    intro sel
    induction draws with
    | nil => simp
    | cons a l ih =>
      simp only [List.any_cons, List.map_cons, List.sum_cons]
      by_cases h : ((sel (triangle k1 k2 a)).1 % n).toNat = i ∧ ((sel (triangle k1 k2 a)).2 % m).toNat = j
      · simp only [h, and_self, decide_true, Bool.true_or, if_true]; omega
      · simp only [h, decide_false, Bool.false_or, if_false, zero_add]; exact ih
  have hk1 := key Triangle.k1
  have hk2 := key Triangle.k2
  have hk3 := key Triangle.k3
  unfold trackerAdd
  simp only
  refine le_trans (Nat.add_le_add (Nat.add_le_add hk1 hk2) hk3) (le_of_eq ?_)
  clear key hk1 hk2 hk3
  have three : ∀ a b c : ℤ × ℤ, ∀ P : ℤ × ℤ → Prop, ∀ _ : DecidablePred P,
      ([a, b, c].filter (fun k => decide (P k))).length =
        (if P a then 1 else 0) + (if P b then 1 else 0) + (if P c then 1 else 0) := by
    intro a b c P _
    by_cases ha : P a <;> by_cases hb : P b <;> by_cases hc : P c <;> simp [ha, hb, hc]
  simp only [three _ _ _ (fun k : ℤ × ℤ => (k.1 % (n : ℤ)).toNat = i ∧ (k.2 % (m : ℤ)).toNat = j)]
  induction draws with
  | nil => simp
  | cons a l ih =>
    simp only [List.map_cons, List.sum_cons]
    rw [← ih]
    omega

/-- It undercounts as soon as a wave vector is drawn twice in a bin: two draws at zero magnitude use the
zero frequency six times and are recorded as three. -/
theorem C46_tracker_undercounts (n m : ℕ) (a b : ℝ × ℝ) :
    trackerAdd n m 0 0 [a, b] 0 0 = 3 ∧
      (([a, b] : List (ℝ × ℝ)).map (fun phi =>
        let t := triangle 0 0 phi
        ([t.k1, t.k2, t.k3].filter (fun k : ℤ × ℤ => decide ((k.1 % (n : ℤ)).toNat = 0 ∧ (k.2 % (m : ℤ)).toNat = 0))).length)).sum = 6 := by
  have : ∀ phi, triangle 0 0 phi = ⟨(0, 0), (0, 0), (0, 0)⟩ := by
    intro phi; simp [triangle, pyInt]
  constructor
  · simp [trackerAdd, this]
  · simp [this]

/-- Images that are not square can fail, depending on the draws: 10×2 pixels, wave vector (0, 4). -/
theorem C46_not_square_raises : ∃ (img : Arr2 ℝ) (draws : ℕ → ℕ → List (ℝ × ℝ)), img.n = 10 ∧ img.m = 2 ∧
    computeBispectrum img false draws = .error .indexError := by
  refine ⟨⟨10, 2, fun _ _ => 1⟩, fun _ _ => [(Real.pi / 2, 0)], rfl, rfl, ?_⟩
  unfold computeBispectrum
  simp only
  rw [if_pos]
  refine ⟨4, by norm_num, 0, by norm_num, .indexError, ?_⟩
  have h1 : (triangle 4 0 (Real.pi / 2, 0)).k1 = (0, 4) := by
    simp only [triangle, Real.cos_pi_div_two, Real.sin_pi_div_two, mul_zero, mul_one]
    have h0 : pyInt 0 = 0 := by simp [pyInt]
    have h4 : pyInt ((4 : ℕ) : ℝ) = 4 := by
      unfold pyInt; rw [if_pos (by positivity)]; exact Int.floor_natCast 4
    rw [h0, h4]
  unfold bispecSamples
  rw [List.mapM_cons]
  have : bispecSample (bispecFft ⟨10, 2, fun _ _ => 1⟩ false) (triangle 4 0 (Real.pi / 2, 0)) = .error .indexError := by
    unfold bispecSample fftAt
    rw [h1]
    have e2 : npIdx 2 (4 : ℤ) = .error .indexError := npIdx_err (by norm_num)
    have e1 : npIdx 10 (0 : ℤ) = .ok 0 := npIdx_ok (by norm_num)
    simp only [bispecFft, e1, e2, bind, Except.bind]
  rw [this]
  rfl

end TS
