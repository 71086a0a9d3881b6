import Verif.Model.BeamPspec
import Verif.Props.C02
import Verif.Props.C45
import Verif.Props.C105
import Mathlib.Tactic.FieldSimp

/-! C106 — the beam correction gives the spectrum before the beam was applied. -/

namespace TS
open Finset Spec

namespace Spec

/-- A map observed with a beam: the periodic convolution of the map with the image of the beam. -/
noncomputable def observed (n m : ℕ) (K f : ℕ → ℕ → ℝ) (i j : ℕ) : ℝ :=
  ∑ p ∈ range n, ∑ q ∈ range m, K p q * f (((i : ℤ) - p) % n).toNat (((j : ℤ) - q) % m).toNat

/-- The response of the beam at a frequency. -/
noncomputable def response (n m : ℕ) (K : ℕ → ℕ → ℝ) (k l : ℤ) : ℝ := amp n m K k l

/-- `ps` holds the value `g k l` at every frequency the beam lets through, and is missing at the others. -/
def RestoredTo (ps : Arr2 (Option ℝ)) (n m : ℕ) (K : ℕ → ℕ → ℝ) (g : ℤ → ℤ → ℝ) : Prop :=
  ps.n = n ∧ ps.m = m ∧ ∀ i < n, ∀ j < m,
    (response n m K ((i : ℤ) - (n / 2 : ℕ)) ((j : ℤ) - (m / 2 : ℕ)) ≠ 0 →
      ps.get i j = some (g ((i : ℤ) - (n / 2 : ℕ)) ((j : ℤ) - (m / 2 : ℕ)))) ∧
    (response n m K ((i : ℤ) - (n / 2 : ℕ)) ((j : ℤ) - (m / 2 : ℕ)) = 0 → ps.get i j = none)

end Spec

/-- The convolution theorem for `observed`. -/
private theorem dft_observed {n m : ℕ} (hn : 0 < n) (hm : 0 < m) (K f : ℕ → ℕ → ℝ) (k l : ℤ) :
    dft2 n m (fun i j => (observed n m K f i j : ℂ)) k l =
      dft2 n m (fun i j => (K i j : ℂ)) k l * dft2 n m (fun i j => (f i j : ℂ)) k l := by
  have hshift : ∀ p q : ℕ, dft2 n m (fun i j => ((f (((i : ℤ) - p) % n).toNat (((j : ℤ) - q) % m).toNat : ℝ) : ℂ)) k l =
      om n (p * k) * (om m (q * l) * dft2 n m (fun i j => (f i j : ℂ)) k l) := by
    intro p q
    have h0 := dft2_roll0 (m := m) hn (p : ℤ) (fun i j => (f i (rollIx m q j) : ℂ)) k l
    have h1 := dft2_roll1 (n := n) hm (q : ℤ) (fun i j => (f i j : ℂ)) k l
    rw [← h1, ← h0]; rfl
  have hlin : dft2 n m (fun i j => (observed n m K f i j : ℂ)) k l =
      ∑ p ∈ range n, ∑ q ∈ range m, (K p q : ℂ) *
        dft2 n m (fun i j => ((f (((i : ℤ) - p) % n).toNat (((j : ℤ) - q) % m).toNat : ℝ) : ℂ)) k l := by
    simp_rw [← dft2_const_mul]
    unfold dft2 observed
    push_cast
    simp_rw [sum_mul]
    have : ∀ i ∈ range n, (∑ j ∈ range m, ∑ p ∈ range n, ∑ q ∈ range m,
        (K p q : ℂ) * (f (((i : ℤ) - p) % n).toNat (((j : ℤ) - q) % m).toNat : ℂ) * (om n (i * k) * om m (j * l))) =
        ∑ p ∈ range n, ∑ q ∈ range m, ∑ j ∈ range m,
          (K p q : ℂ) * (f (((i : ℤ) - p) % n).toNat (((j : ℤ) - q) % m).toNat : ℂ) * (om n (i * k) * om m (j * l)) := by
      intro i _
      rw [sum_comm]
      apply sum_congr rfl; intro p _
      rw [sum_comm]
    rw [sum_congr rfl this, sum_comm]
    apply sum_congr rfl; intro p _
    rw [sum_comm]
  rw [hlin]
  simp_rw [hshift]
  conv_rhs => unfold dft2
  rw [sum_mul]
  apply sum_congr rfl; intro p _
  rw [sum_mul]
  apply sum_congr rfl; intro q _
  unfold dft2
  ring

private theorem amp_observed {n m : ℕ} (hn : 0 < n) (hm : 0 < m) (K f : ℕ → ℕ → ℝ) (k l : ℤ) :
    amp n m (observed n m K f) k l = response n m K k l * amp n m f k l := by
  unfold response amp
  rw [dft_observed hn hm, norm_mul]

private theorem power_amp (a : Arr2 ℝ) (k l : ℤ) : power2 a k l = amp a.n a.m a.get k l ^ 2 := rfl

/-- The division by the beam, at every frequency. -/
private theorem correct_eq {n m : ℕ} (hn : 0 < n) (hm : 0 < m) (b : BeamImage) (ps : Arr2 (Option ℝ)) (h1 : ps.n = n)
    (h2 : ps.m = m) (g : ℤ → ℤ → ℝ)
    (hg : ∀ i < n, ∀ j < m, ps.get i j = some (response n m (b n m) ((i : ℤ) - (n / 2 : ℕ)) ((j : ℤ) - (m / 2 : ℕ)) ^ 2 *
      g ((i : ℤ) - (n / 2 : ℕ)) ((j : ℤ) - (m / 2 : ℕ)))) :
    ∃ out, withBeam (some b) true ps = .ok out ∧ RestoredTo out n m (b n m) g := by
  obtain ⟨bp, hbp, hall⟩ := C02_beam_correct ⟨n, m, fun _ _ => 1⟩ (b.kernel n m) hn hm
  refine ⟨⟨ps.n, ps.m, fun i j => divO (ps.get i j) (bp.get i j)⟩, ?_, h1, h2, ?_⟩
  · simp only [withBeam, if_true, computeBeamPspec, h1, h2, hbp, bind, Except.bind, pure, Except.pure]
  · intro i hi j hj
    have hp : power2 (b.kernel n m) ((i : ℤ) - (n / 2 : ℕ)) ((j : ℤ) - (m / 2 : ℕ)) =
        response n m (b n m) ((i : ℤ) - (n / 2 : ℕ)) ((j : ℤ) - (m / 2 : ℕ)) ^ 2 := rfl
    obtain ⟨z, nz⟩ := hall i hi j hj
    simp only [BeamImage.kernel] at z nz
    change power2 (b.kernel n m) _ _ = 0 → _ at z
    change power2 (b.kernel n m) _ _ ≠ 0 → _ at nz
    rw [hp] at z
    rw [hp] at nz
    constructor
    · intro hr
      have hr2 := pow_ne_zero 2 hr
      obtain ⟨v, hv, hvb⟩ := nz hr2
      simp only [beamCorrect] at hv
      change v * power2 (b.kernel n m) _ _ = _ at hvb
      rw [hp] at hvb
      cases hb : bp.get i j with
      | none => rw [hb] at hv; cases hv
      | some w =>
        rw [hb] at hv
        have hv' : 1 / w = v := Option.some.inj hv
        have hw0 : w ≠ 0 := by
          rintro rfl
          rw [← hv'] at hvb
          simp at hvb
        have hw : w = response n m (b n m) ((i : ℤ) - (n / 2 : ℕ)) ((j : ℤ) - (m / 2 : ℕ)) ^ 2 := by
          rw [← hv'] at hvb
          field_simp at hvb
          exact hvb.symm
        show divO (ps.get i j) (bp.get i j) = _
        rw [hb, hg i hi j hj]
        simp only [divO, bind, Option.bind]
        rw [if_neg hw0, hw, mul_div_cancel_left₀ _ hr2]
    · intro hr
      have := z (by rw [hr]; norm_num)
      simp only [beamCorrect, Option.map_eq_none_iff] at this
      show divO (ps.get i j) (bp.get i j) = none
      rw [this]
      cases ps.get i j <;> rfl

/-- An image observed with a beam: the corrected power spectrum is that of the image without the beam, wherever the beam has a
response, and missing elsewhere. -/
theorem C106_power_spectrum (n m : ℕ) (hn : 0 < n) (hm : 0 < m) (b : BeamImage) (f : ℕ → ℕ → ℝ) :
    ∃ ps ps0, pspecFull ⟨n, m, observed n m (b n m) f⟩ none (some b) true = .ok ps ∧
      computePspec ⟨n, m, f⟩ none = .ok ps0 ∧ IsCentredPower ps0 ⟨n, m, f⟩ ∧
      RestoredTo ps n m (b n m) (fun k l => power2 ⟨n, m, f⟩ k l) := by
  obtain ⟨q, hq, hc⟩ := computePspec_none ⟨n, m, observed n m (b n m) f⟩ hn hm
  obtain ⟨ps0, h0, hc0⟩ := computePspec_none ⟨n, m, f⟩ hn hm
  obtain ⟨out, ho, hr⟩ := correct_eq hn hm b (q.map some) hc.1 hc.2.1 (fun k l => power2 ⟨n, m, f⟩ k l) (by
    intro i hi j hj
    show some (q.get i j) = _
    rw [hc.2.2 i hi j hj, power_amp, power_amp]
    show some (amp n m (observed n m (b n m) f) _ _ ^ 2) = _
    rw [amp_observed hn hm, mul_pow])
  refine ⟨out, ps0, ?_, h0, hc0, hr⟩
  simp only [pspecFull, hq, bind, Except.bind, ho]

/-- A cube whose channels were observed with a beam: the corrected VCA is that of the cube without the beam. -/
theorem C106_vca (a : Arr3 ℝ) (hn : 0 < a.n) (hm : 0 < a.m) (hp : 0 < a.p) (b : BeamImage) :
    ∃ ps ps0, vcaFull ⟨a.n, a.m, a.p, fun c => observed a.m a.p (b a.m a.p) (fun i j => a.get c i j)⟩ none (some b) true = .ok ps ∧
      vcaComputePspec a none = .ok ps0 ∧ IsChannelPower ps0 a ∧
      RestoredTo ps a.m a.p (b a.m a.p) (fun k l => a.n * ∑ c ∈ range a.n, power2 (channel a c) k l) := by
  obtain ⟨q, hq, h1, h2, h3⟩ := C03_vca_channel_sum ⟨a.n, a.m, a.p, fun c => observed a.m a.p (b a.m a.p) (fun i j => a.get c i j)⟩
    hn hm hp
  obtain ⟨ps0, h0, g1, g2, g3⟩ := C03_vca_channel_sum a hn hm hp
  obtain ⟨out, ho, hr⟩ := correct_eq hm hp b (q.map some) h1 h2 (fun k l => a.n * ∑ c ∈ range a.n, power2 (channel a c) k l) (by
    intro i hi j hj
    show some (q.get i j) = _
    rw [h3 i hi j hj]
    congr 1
    rw [mul_left_comm]
    show (a.n : ℝ) * _ = _
    congr 1
    rw [mul_sum]
    apply sum_congr rfl; intro c _
    rw [power_amp, power_amp]
    show amp a.m a.p (observed a.m a.p (b a.m a.p) (fun i j => a.get c i j)) _ _ ^ 2 = _
    rw [amp_observed hm hp, mul_pow]
    rfl)
  refine ⟨out, ps0, ?_, h0, ⟨g1, g2, g3⟩, hr⟩
  simp only [vcaFull, hq, bind, Except.bind, ho]

/-- The centroid spectrum of moment maps whose intensity `J` and intensity times velocity `S` were observed with a beam: the two
amplitudes are restored.  Missing for the full property: the mean square velocity is that of the observed maps
(`C106_mvc_violated`). -/
theorem C106_mvc_partial (n m : ℕ) (hn : 0 < n) (hm : 0 < m) (b : BeamImage) (S J V L : ℕ → ℕ → ℝ)
    (hV : ∀ i < n, ∀ j < m, V i j * observed n m (b n m) J i j = observed n m (b n m) S i j) :
    ∃ ps, mvcFull ⟨fullMap n m V, fullMap n m (observed n m (b n m) J), fullMap n m L⟩ none (some b) true = .ok ps ∧
      RestoredTo ps n m (b n m) (fun k l => (amp n m S k l -
        mapMean n m (fun i j => L i j ^ 2 + V i j ^ 2) * amp n m J k l) ^ 2) := by
  obtain ⟨q, hq, hc⟩ := C45_spectrum_partial n m hn hm V (observed n m (b n m) J) L
  obtain ⟨out, ho, hr⟩ := correct_eq hn hm b q hc.1 hc.2.1 (fun k l => (amp n m S k l -
        mapMean n m (fun i j => L i j ^ 2 + V i j ^ 2) * amp n m J k l) ^ 2) (by
    intro i hi j hj
    rw [hc.2.2 i hi j hj]
    congr 1
    have : ∀ k l, amp n m (fun i j => V i j * observed n m (b n m) J i j) k l = amp n m (observed n m (b n m) S) k l := by
      intro k l
      unfold amp
      congr 1
      apply dft2_congr
      intro i hi j hj
      exact congrArg _ (hV i hi j hj)
    beta_reduce
    rw [this, amp_observed hn hm, amp_observed hn hm]
    ring)
  refine ⟨out, ?_, hr⟩
  simp only [mvcFull, hq, bind, Except.bind, ho]

/-- Without a beam the correction raises AttributeError; when it is not asked for, the beam has no effect. -/
theorem C106_no_beam (n m : ℕ) (hn : 0 < n) (hm : 0 < m) (f : ℕ → ℕ → ℝ) (beam : Option BeamImage) :
    pspecFull ⟨n, m, f⟩ none none true = .error .attributeError ∧
    ∃ ps, pspecFull ⟨n, m, f⟩ none beam false = .ok ps ∧ IsCentred ps n m (fun k l => power2 ⟨n, m, f⟩ k l) := by
  obtain ⟨q, hq, hc⟩ := computePspec_none ⟨n, m, f⟩ hn hm
  refine ⟨?_, q.map some, ?_, hc.1, hc.2.1, ?_⟩
  · simp only [pspecFull, hq, bind, Except.bind, withBeam, if_true, computeBeamPspec]
  · simp only [pspecFull, hq, bind, Except.bind, withBeam, Bool.false_eq_true, if_false]
  · intro i hi j hj
    show some (q.get i j) = _
    rw [hc.2.2 i hi j hj]

/-- The same for cubes and moment maps. -/
theorem C106_no_beam_others (a : Arr3 ℝ) (hn : 0 < a.n) (hm : 0 < a.m) (hp : 0 < a.p) (n m : ℕ) (hn' : 0 < n) (hm' : 0 < m)
    (V I L : ℕ → ℕ → ℝ) (beam : Option BeamImage) :
    vcaFull a none none true = .error .attributeError ∧
    (∃ ps, vcaFull a none beam false = .ok ps ∧
      IsCentred ps a.m a.p (fun k l => a.n * ∑ c ∈ range a.n, power2 (channel a c) k l)) ∧
    mvcFull ⟨fullMap n m V, fullMap n m I, fullMap n m L⟩ none none true = .error .attributeError ∧
    mvcFull ⟨fullMap n m V, fullMap n m I, fullMap n m L⟩ none beam false =
      mvcPspec ⟨fullMap n m V, fullMap n m I, fullMap n m L⟩ none := by
  obtain ⟨q, hq, h1, h2, h3⟩ := C03_vca_channel_sum a hn hm hp
  obtain ⟨r, hr, _⟩ := C45_spectrum_partial n m hn' hm' V I L
  refine ⟨?_, ⟨q.map some, ?_, h1, h2, ?_⟩, ?_, ?_⟩
  · simp only [vcaFull, hq, bind, Except.bind, withBeam, if_true, computeBeamPspec]
  · simp only [vcaFull, hq, bind, Except.bind, withBeam, Bool.false_eq_true, if_false]
  · intro i hi j hj
    show some (q.get i j) = _
    rw [h3 i hi j hj]
  · simp only [mvcFull, hr, bind, Except.bind, withBeam, if_true, computeBeamPspec]
  · simp only [mvcFull, hr, bind, Except.bind, withBeam, Bool.false_eq_true, if_false]

private theorem amp_zero (f : ℕ → ℕ → ℝ) : amp 1 2 f 0 0 = |f 0 0 + f 0 1| := by
  have : dft2 1 2 (fun i j => (f i j : ℂ)) 0 0 = ((f 0 0 + f 0 1 : ℝ) : ℂ) := by
    simp [dft2, sum_range_succ, om_zero]
  unfold amp
  rw [this, Complex.norm_real, Real.norm_eq_abs]

/-- A beam of two pixels, three quarters of it in the first. -/
private noncomputable def wideBeam : BeamImage := fun _ _ _ q => if q = 0 then 3 / 4 else 1 / 4

private theorem observed2 (f : ℕ → ℕ → ℝ) :
    observed 1 2 (wideBeam 1 2) f 0 0 = 3 / 4 * f 0 0 + 1 / 4 * f 0 1 ∧
    observed 1 2 (wideBeam 1 2) f 0 1 = 3 / 4 * f 0 1 + 1 / 4 * f 0 0 := by
  constructor <;> simp [observed, sum_range_succ, wideBeam]

/-- The corrected centroid spectrum is not that of the maps without the beam, even if intensity, intensity times velocity and
intensity times square velocity were all observed with that beam: the mean square velocity is left uncorrected. -/
theorem C106_mvc_violated : ∃ (b : BeamImage) (J V₀ L₀ V L : ℕ → ℕ → ℝ) (ps ps0 : Arr2 (Option ℝ)),
    (∀ i < 1, ∀ j < 2, 0 < J i j) ∧
    (∀ i < 1, ∀ j < 2, V i j * observed 1 2 (b 1 2) J i j = observed 1 2 (b 1 2) (fun i j => V₀ i j * J i j) i j) ∧
    (∀ i < 1, ∀ j < 2, (L i j ^ 2 + V i j ^ 2) * observed 1 2 (b 1 2) J i j =
      observed 1 2 (b 1 2) (fun i j => (L₀ i j ^ 2 + V₀ i j ^ 2) * J i j) i j) ∧
    mvcFull ⟨fullMap 1 2 V, fullMap 1 2 (observed 1 2 (b 1 2) J), fullMap 1 2 L⟩ none (some b) true = .ok ps ∧
    mvcPspec ⟨fullMap 1 2 V₀, fullMap 1 2 J, fullMap 1 2 L₀⟩ none = .ok ps0 ∧
    response 1 2 (b 1 2) 0 0 = 1 ∧ ps.get 0 1 ≠ ps0.get 0 1 := by
  let J : ℕ → ℕ → ℝ := fun _ j => if j = 0 then 1 else 3
  let V₀ : ℕ → ℕ → ℝ := fun _ j => if j = 0 then 1 else 0
  let V : ℕ → ℕ → ℝ := fun _ j => if j = 0 then 1 / 2 else 1 / 10
  let L : ℕ → ℕ → ℝ := fun _ j => if j = 0 then 1 / 2 else 3 / 10
  have hV : ∀ i < 1, ∀ j < 2, V i j * observed 1 2 (wideBeam 1 2) J i j =
      observed 1 2 (wideBeam 1 2) (fun i j => V₀ i j * J i j) i j := by
    intro i hi j hj
    obtain rfl : i = 0 := by omega
    obtain rfl | rfl : j = 0 ∨ j = 1 := by omega
    · rw [(observed2 _).1, (observed2 _).1]; norm_num [V, V₀, J]
    · rw [(observed2 _).2, (observed2 _).2]; norm_num [V, V₀, J]
  obtain ⟨ps, h, hr⟩ := C106_mvc_partial 1 2 one_pos two_pos wideBeam (fun i j => V₀ i j * J i j) J V L hV
  obtain ⟨ps0, h0, hc⟩ := C45_spectrum_partial 1 2 one_pos two_pos V₀ J (fun _ _ => 0)
  have hresp : response 1 2 (wideBeam 1 2) 0 0 = 1 := by
    unfold response
    rw [amp_zero]; norm_num [wideBeam]
  refine ⟨wideBeam, J, V₀, fun _ _ => 0, V, L, ps, ps0, ?_, hV, ?_, h, h0, hresp, ?_⟩
  · intro i _ j _
    show (0 : ℝ) < if j = 0 then 1 else 3
    split <;> norm_num
  · intro i hi j hj
    obtain rfl : i = 0 := by omega
    obtain rfl | rfl : j = 0 ∨ j = 1 := by omega
    · rw [(observed2 _).1, (observed2 _).1]; norm_num [V, V₀, J, L]
    · rw [(observed2 _).2, (observed2 _).2]; norm_num [V, V₀, J, L]
  · have e1 := (hr.2.2 0 one_pos 1 one_lt_two).1
    have e0 := hc.2.2 0 one_pos 1 one_lt_two
    have z0 : ((0 : ℕ) : ℤ) - ((1 / 2 : ℕ) : ℤ) = 0 := by norm_num
    have z1 : ((1 : ℕ) : ℤ) - ((2 / 2 : ℕ) : ℤ) = 0 := by norm_num
    rw [z0, z1] at e1 e0
    rw [e1 (by rw [hresp]; exact one_ne_zero), e0]
    beta_reduce
    rw [amp_zero, amp_zero]
    norm_num [mapMean, sum_range_succ, V, V₀, J, L]

/-! ### Windows -/

private theorem beam_entry {n m : ℕ} (hn : 0 < n) (hm : 0 < m) (b : BeamImage) (ps : Arr2 (Option ℝ)) (h1 : ps.n = n) (h2 : ps.m = m)
    (i j : ℕ) (hi : i < n) (hj : j < m) (v : ℝ) (hv : ps.get i j = some v)
    (hr : response n m (b n m) ((i : ℤ) - (n / 2 : ℕ)) ((j : ℤ) - (m / 2 : ℕ)) ≠ 0) :
    ∃ out, withBeam (some b) true ps = .ok out ∧
      out.get i j = some (v / response n m (b n m) ((i : ℤ) - (n / 2 : ℕ)) ((j : ℤ) - (m / 2 : ℕ)) ^ 2) := by
  obtain ⟨o, ho, hR⟩ := correct_eq hn hm b ⟨n, m, fun i j => some (response n m (b n m) ((i : ℤ) - (n / 2 : ℕ)) ((j : ℤ) - (m / 2 : ℕ)) ^ 2 * 1)⟩
    rfl rfl (fun _ _ => 1) (fun _ _ _ _ => rfl)
  have e := (hR.2.2 i hi j hj).1 hr
  simp only [withBeam, if_true, computeBeamPspec, bind, Except.bind, pure, Except.pure] at ho ⊢
  rw [h1, h2]
  cases hb : beamPspec (b.kernel n m) with
  | error err => rw [hb] at ho; cases ho
  | ok bp =>
    rw [hb] at ho
    simp only at ho ⊢
    rw [← Except.ok.inj ho] at e
    refine ⟨_, rfl, ?_⟩
    simp only at e ⊢
    cases hg : bp.get i j with
    | none => rw [hg] at e; simp [divO] at e
    | some w =>
      rw [hg] at e
      simp only [divO, bind, Option.bind] at e
      by_cases hw : w = 0
      · rw [if_pos hw] at e; cases e
      · rw [if_neg hw] at e
        have e' := Option.some.inj e
        rw [mul_one, div_eq_one_iff_eq hw] at e'
        rw [hv]
        simp only [divO, bind, Option.bind]
        rw [if_neg hw, e']

private theorem roll_iff {n a i p : ℕ} (hn : 0 < n) (ha : a < n) (hi : i < n) : (((i : ℤ) - p) % n).toNat = a ↔ i = (a + p) % n := by
  have h0 : 0 ≤ ((i : ℤ) - p) % n := Int.emod_nonneg _ (by omega)
  have key : (((i : ℤ) - p) % n = (a : ℤ)) ↔ ((i : ℤ) = ((a : ℤ) + p) % n) := by
    have ei : (i : ℤ) = (i : ℤ) % n := (Int.emod_eq_of_lt (by omega) (by omega)).symm
    have ea : (a : ℤ) = (a : ℤ) % n := (Int.emod_eq_of_lt (by omega) (by omega)).symm
    constructor
    · intro h
      rw [ei, ← h, Int.emod_add_emod, Int.sub_add_cancel, ← ei]
    · intro h
      rw [h, Int.emod_sub_emod, Int.add_sub_cancel]
      exact ea.symm
  constructor
  · intro h
    have : ((i : ℤ) - p) % n = (a : ℤ) := by omega
    have := key.1 this
    exact_mod_cast this
  · intro h
    have : ((i : ℤ) - p) % n = (a : ℤ) := key.2 (by rw [h]; push_cast; rfl)
    omega

private theorem amp_origin (n m : ℕ) (f : ℕ → ℕ → ℝ) : amp n m f 0 0 = |∑ i ∈ range n, ∑ j ∈ range m, f i j| := by
  have : dft2 n m (fun i j => (f i j : ℂ)) 0 0 = ((∑ i ∈ range n, ∑ j ∈ range m, f i j : ℝ) : ℂ) := by
    simp [dft2, om_zero]
  unfold amp
  rw [this, Complex.norm_real, Real.norm_eq_abs]

/-- A point source seen through beam and window. -/
private theorem windowed_point {n m : ℕ} (hn : 0 < n) (hm : 0 < m) (K w : ℕ → ℕ → ℝ) (a c : ℕ) (ha : a < n) (hc : c < m) :
    ∑ i ∈ range n, ∑ j ∈ range m, observed n m K (fun i j => if i = a ∧ j = c then 1 else 0) i j * w i j =
      ∑ p ∈ range n, ∑ q ∈ range m, K p q * w ((a + p) % n) ((c + q) % m) := by
  have h1 : ∀ i ∈ range n, ∑ j ∈ range m, observed n m K (fun i j => if i = a ∧ j = c then 1 else 0) i j * w i j =
      ∑ p ∈ range n, ∑ q ∈ range m, ∑ j ∈ range m, K p q * (if i = (a + p) % n ∧ j = (c + q) % m then 1 else 0) * w i j := by
    intro i hi
    unfold observed
    simp_rw [sum_mul]
    rw [sum_comm]
    apply sum_congr rfl; intro p _
    rw [sum_comm]
    apply sum_congr rfl; intro q _
    apply sum_congr rfl; intro j hj
    congr 2
    simp only [roll_iff hn ha (mem_range.1 hi), roll_iff hm hc (mem_range.1 hj)]
  rw [sum_congr rfl h1, sum_comm]
  apply sum_congr rfl; intro p _
  rw [sum_comm]
  apply sum_congr rfl; intro q _
  rw [sum_eq_single_of_mem ((a + p) % n) (mem_range.2 (Nat.mod_lt _ hn)), sum_eq_single_of_mem ((c + q) % m) (mem_range.2 (Nat.mod_lt _ hm))]
  · simp
  · intro j _ hj; simp [hj]
  · intro i _ hi; apply sum_eq_zero; intro j _; simp [hi]

/-- The window is not corrected for: with any of the windows that is not the same at all pixels and any beam that is positive everywhere, such
as a Gaussian, there is an image (a point source where the window is largest) whose corrected spectrum at frequency zero is smaller than
that of the image without the beam. -/
theorem C106_window_violated (n m : ℕ) (hn : 0 < n) (hm : 0 < m) (name : String) (alpha beta : ℝ) (w : Arr2 ℝ)
    (hw : apodizingKernel name alpha beta [n, m] = .ok w) (a₀ c₀ a₁ c₁ : ℕ) (ha₀ : a₀ < n) (hc₀ : c₀ < m) (ha₁ : a₁ < n) (hc₁ : c₁ < m)
    (hne : w.get a₀ c₀ ≠ w.get a₁ c₁) (b : BeamImage) (hb : ∀ p < n, ∀ q < m, 0 < b n m p q) :
    ∃ (f : ℕ → ℕ → ℝ) (ps : Arr2 (Option ℝ)) (ps0 : Arr2 ℝ) (v : ℝ),
      pspecFull ⟨n, m, observed n m (b n m) f⟩ (some ⟨name, alpha, beta⟩) (some b) true = .ok ps ∧
      computePspec ⟨n, m, f⟩ (some ⟨name, alpha, beta⟩) = .ok ps0 ∧ response n m (b n m) 0 0 ≠ 0 ∧
      ps.get (n / 2) (m / 2) = some v ∧ v < ps0.get (n / 2) (m / 2) := by
  have hname : name ∈ ["splitcosinebell", "hanning", "tukey", "cosinebell"] := by
    by_contra hx
    rw [(C08_apodizing_kernel name alpha beta 0 n m).2 hx] at hw
    cases hw
  obtain ⟨w', hw', hT⟩ := ((C08_apodizing_kernel name alpha beta 0 n m).1 hname).1
  rw [hw] at hw'; cases hw'
  have spec : ∀ g : ℕ → ℕ → ℝ, ∃ ps, computePspec ⟨n, m, g⟩ (some ⟨name, alpha, beta⟩) = .ok ps ∧
      IsCentredPower ps ⟨n, m, fun i j => g i j * w.get i j⟩ := by
    intro g
    obtain ⟨ps, hps, hc⟩ := computePspec_none ⟨n, m, fun i j => g i j * w.get i j⟩ hn hm
    refine ⟨ps, ?_, hc⟩
    rw [← hps]
    have hs := hT.shape
    simp [computePspec, hw, bind, Except.bind, mul2, hs.1, hs.2]
  -- the pixel where the window is largest
  obtain ⟨z, hz, hmax⟩ := exists_max_image (range n ×ˢ range m) (fun z => w.get z.1 z.2) ⟨(a₀, c₀), by simp [ha₀, hc₀]⟩
  obtain ⟨za, zc⟩ := mem_product.1 hz
  have za := mem_range.1 za
  have zc := mem_range.1 zc
  have hle : ∀ i < n, ∀ j < m, w.get i j ≤ w.get z.1 z.2 := fun i hi j hj => hmax (i, j) (by simp [hi, hj])
  obtain ⟨a, ha, c, hc, hlt⟩ : ∃ a < n, ∃ c < m, w.get a c < w.get z.1 z.2 := by
    by_contra hcon
    push_neg at hcon
    exact hne ((le_antisymm (hle _ ha₀ _ hc₀) (hcon _ ha₀ _ hc₀)).trans (le_antisymm (hle _ ha₁ _ hc₁) (hcon _ ha₁ _ hc₁)).symm)
  set f : ℕ → ℕ → ℝ := fun i j => if i = z.1 ∧ j = z.2 then 1 else 0 with hf
  obtain ⟨q, hq, hqc⟩ := spec (observed n m (b n m) f)
  obtain ⟨ps0, h0, h0c⟩ := spec f
  have zi : ((n / 2 : ℕ) : ℤ) - ((n / 2 : ℕ) : ℤ) = 0 := by omega
  have zj : ((m / 2 : ℕ) : ℤ) - ((m / 2 : ℕ) : ℤ) = 0 := by omega
  have hi : n / 2 < n := Nat.div_lt_self hn (by norm_num)
  have hj : m / 2 < m := Nat.div_lt_self hm (by norm_num)
  set S : ℝ := ∑ p ∈ range n, ∑ r ∈ range m, b n m p r * w.get ((z.1 + p) % n) ((z.2 + r) % m) with hS
  set B : ℝ := ∑ p ∈ range n, ∑ r ∈ range m, b n m p r with hB
  have eq1 : q.get (n / 2) (m / 2) = S ^ 2 := by
    rw [hqc.2.2 _ hi _ hj, zi, zj, power_amp, amp_origin, sq_abs]
    congr 1
    exact windowed_point hn hm (b n m) w.get z.1 z.2 za zc
  have eq0 : ps0.get (n / 2) (m / 2) = w.get z.1 z.2 ^ 2 := by
    rw [h0c.2.2 _ hi _ hj, zi, zj, power_amp, amp_origin, sq_abs]
    congr 1
    show ∑ i ∈ range n, ∑ j ∈ range m, f i j * w.get i j = _
    rw [sum_eq_single_of_mem z.1 (mem_range.2 za), sum_eq_single_of_mem z.2 (mem_range.2 zc)]
    · simp [hf]
    · intro j _ hj; simp [hf, hj]
    · intro i _ hi; apply sum_eq_zero; intro j _; simp [hf, hi]
  have hBpos : 0 < B := sum_pos (fun p hp => sum_pos (fun r hr => hb p (mem_range.1 hp) r (mem_range.1 hr)) ⟨0, by simp [hm]⟩) ⟨0, by simp [hn]⟩
  have hresp : response n m (b n m) 0 0 = B := by
    unfold response
    rw [amp_origin]
    exact abs_of_pos hBpos
  have w0 : ∀ i < n, ∀ j < m, 0 ≤ w.get i j := fun i hi j hj => hT.nonneg i hi j hj
  have hS0 : 0 ≤ S := sum_nonneg fun p hp => sum_nonneg fun r hr =>
    mul_nonneg (hb p (mem_range.1 hp) r (mem_range.1 hr)).le (w0 _ (Nat.mod_lt _ hn) _ (Nat.mod_lt _ hm))
  have hSlt : S < B * w.get z.1 z.2 := by
    rw [hS, hB, sum_mul]
    have ex1 : (z.1 + (((a : ℤ) - z.1) % n).toNat) % n = a := ((roll_iff (p := (((a : ℤ) - z.1) % n).toNat) hn za ha).1 (by
      have := Int.emod_nonneg ((a : ℤ) - z.1) (by omega : (n : ℤ) ≠ 0)
      rw [Int.toNat_of_nonneg this, Int.sub_emod_emod, show (a : ℤ) - (a - z.1) = (z.1 : ℤ) by ring, Int.emod_eq_of_lt (by omega) (by omega)]
      rfl)).symm
    have ex2 : (z.2 + (((c : ℤ) - z.2) % m).toNat) % m = c := ((roll_iff (p := (((c : ℤ) - z.2) % m).toNat) hm zc hc).1 (by
      have := Int.emod_nonneg ((c : ℤ) - z.2) (by omega : (m : ℤ) ≠ 0)
      rw [Int.toNat_of_nonneg this, Int.sub_emod_emod, show (c : ℤ) - (c - z.2) = (z.2 : ℤ) by ring, Int.emod_eq_of_lt (by omega) (by omega)]
      rfl)).symm
    have p0 : (((a : ℤ) - z.1) % n).toNat < n := by
      have := Int.emod_lt_of_pos ((a : ℤ) - z.1) (by omega : (0 : ℤ) < n)
      omega
    have r0 : (((c : ℤ) - z.2) % m).toNat < m := by
      have := Int.emod_lt_of_pos ((c : ℤ) - z.2) (by omega : (0 : ℤ) < m)
      omega
    have le1 : ∀ p ∈ range n, ∀ r ∈ range m, b n m p r * w.get ((z.1 + p) % n) ((z.2 + r) % m) ≤ b n m p r * w.get z.1 z.2 :=
      fun p hp r hr => mul_le_mul_of_nonneg_left (hle _ (Nat.mod_lt _ hn) _ (Nat.mod_lt _ hm)) (hb p (mem_range.1 hp) r (mem_range.1 hr)).le
    apply sum_lt_sum
    · intro p hp
      rw [sum_mul]
      exact sum_le_sum (le1 p hp)
    · refine ⟨_, mem_range.2 p0, ?_⟩
      rw [sum_mul]
      apply sum_lt_sum (le1 _ (mem_range.2 p0))
      refine ⟨_, mem_range.2 r0, ?_⟩
      rw [ex1, ex2]
      exact mul_lt_mul_of_pos_left hlt (hb _ p0 _ r0)
  obtain ⟨out, ho, hv⟩ := beam_entry hn hm b (q.map some) hqc.1 hqc.2.1 (n / 2) (m / 2) hi hj (S ^ 2) (by show some (q.get _ _) = _; rw [eq1])
    (by rw [zi, zj, hresp]; exact hBpos.ne')
  rw [zi, zj, hresp] at hv
  refine ⟨f, out, ps0, S ^ 2 / B ^ 2, ?_, h0, by rw [hresp]; exact hBpos.ne', hv, ?_⟩
  · simp only [pspecFull, hq, bind, Except.bind, ho]
  · rw [eq0, div_lt_iff₀ (by positivity), ← mul_pow]
    exact pow_lt_pow_left₀ (by rw [mul_comm]; exact hSlt) hS0 two_ne_zero

/-- The Hanning window of three by three pixels is 1 in the middle and 0 in the corners. -/
example : ∃ w, apodizingKernel "hanning" 0 0 [3, 3] = .ok w ∧ w.get 1 1 ≠ w.get 0 0 := by
  refine ⟨_, rfl, ?_⟩
  have hd : radialDistance 3 3 0 0 = Real.sqrt 2 := by unfold radialDistance; norm_num
  have hc : radialDistance 3 3 1 1 = 0 := by unfold radialDistance; norm_num
  have ht : rTaper 1 3 3 = 1 := by unfold rTaper halfExtent; norm_num
  have hi : rInner 0 3 3 = 0 := by unfold rInner; norm_num
  have h2 : (1 : ℝ) < Real.sqrt 2 := by rw [Real.lt_sqrt] <;> norm_num
  simp only [hd, hc, ht, hi]
  norm_num [h2]

/-- A beam of a single pixel, wherever it is, has response one at every frequency: the correction then changes nothing. -/
theorem C106_point_beam (n m p q : ℕ) (hp : p < n) (hq : q < m) (k l : ℤ) :
    response n m (fun i j => if i = p ∧ j = q then 1 else 0) k l = 1 := by
  unfold response amp dft2
  rw [sum_eq_single_of_mem p (mem_range.2 hp), sum_eq_single_of_mem q (mem_range.2 hq)]
  · simp [norm_om]
  · intro j _ hj; simp [hj]
  · intro i _ hi; apply sum_eq_zero; intro j _; simp [hi]

/-- Both cases of `RestoredTo` occur: two equal pixels have response one at frequency zero and none at the other. -/
example : response 1 2 (fun _ _ => 1 / 2) 0 0 = 1 ∧ response 1 2 (fun _ _ => 1 / 2) 0 (-1) = 0 := by
  constructor
  · unfold response; rw [amp_zero]; norm_num
  · have h : om 2 (-1) = -1 := by
      unfold om
      rw [← Complex.exp_pi_mul_I]
      first
        | (congr 1; push_cast; ring)
        | (rw [Complex.exp_eq_exp_iff_exists_int]; refine ⟨-1, ?_⟩; push_cast; ring)
        | (rw [Complex.exp_eq_exp_iff_exists_int]; refine ⟨0, ?_⟩; push_cast; ring)
    simp [response, amp, dft2, sum_range_succ, om_zero, h]

end TS
