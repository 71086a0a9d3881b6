import Verif.Props.C124
import Verif.Props.C122Pspec

/-! C124: a periodic map or cube shown over several periods. Power spectra. -/

namespace TS
open Finset

theorem tile_one {p n : ℕ} (hp : 0 < p) (hn : 0 < n) (F : ℕ → ℂ) (k : ℤ) :
    ∑ i ∈ range (p * n), F (i % n) * om (p * n) (i * k) =
      (if (p : ℤ) ∣ k then (p : ℂ) else 0) * ∑ i ∈ range n, F i * om (p * n) (i * k) := by
  have hpn : 0 < p * n := Nat.mul_pos hp hn
  have e : ∑ i ∈ range (p * n), F (i % n) * om (p * n) (i * k) =
      ∑ r ∈ range p, ∑ i ∈ range n, F i * om (p * n) (((r * n + i : ℕ) : ℤ) * k) := by
    rw [← sum_flat p n fun r i => F i * om (p * n) (((r * n + i : ℕ) : ℤ) * k)]
    refine sum_congr rfl fun i _ => ?_
    rw [Nat.div_add_mod']
  rw [e, ← sum_om hp k, sum_mul]
  refine sum_congr rfl fun r _ => ?_
  rw [mul_sum]
  refine sum_congr rfl fun i _ => ?_
  have e1 : om (p * n) ((r : ℤ) * (n * k)) = om p ((r : ℤ) * k) := om_same hp hpn (by push_cast; ring) r
  rw [show (((r * n + i : ℕ) : ℤ) * k) = (r : ℤ) * (n * k) + (i : ℤ) * k by push_cast; ring, om_add, e1]
  ring

private theorem tile_dft {p q : ℕ} (hp : 0 < p) (hq : 0 < q) {n m : ℕ} (hn : 0 < n) (hm : 0 < m) (F : ℕ → ℕ → ℂ) (k l : ℤ) :
    dft2 (p * n) (q * m) (fun i j => F (i % n) (j % m)) k l =
      (if (p : ℤ) ∣ k then (p : ℂ) else 0) * (if (q : ℤ) ∣ l then (q : ℂ) else 0) *
        ∑ i ∈ range n, ∑ j ∈ range m, F i j * (om (p * n) (i * k) * om (q * m) (j * l)) := by
  unfold dft2
  have e1 : ∀ i ∈ range (p * n), ∑ j ∈ range (q * m), F (i % n) (j % m) * (om (p * n) (i * k) * om (q * m) (j * l)) =
      ((if (q : ℤ) ∣ l then (q : ℂ) else 0) * ∑ j ∈ range m, F (i % n) j * om (q * m) (j * l)) * om (p * n) (i * k) := by
    intro i _
    rw [← tile_one hq hm (F (i % n)) l, sum_mul]
    exact sum_congr rfl fun j _ => by ring
  rw [sum_congr rfl e1, tile_one hp hn (fun i => (if (q : ℤ) ∣ l then (q : ℂ) else 0) * ∑ j ∈ range m, F i j * om (q * m) (j * l)) k, mul_assoc, mul_sum, mul_sum,
    mul_sum]
  refine sum_congr rfl fun i _ => ?_
  rw [mul_sum, sum_mul, mul_sum, mul_sum, mul_sum]
  exact sum_congr rfl fun j _ => by ring

/-- The power of a repeated map: at the frequencies of the map multiplied by the square of the number of periods, nothing elsewhere. -/
private theorem tile_power {p q : ℕ} (hp : 0 < p) (hq : 0 < q) {d d' : Arr2 ℝ} (hn : 0 < d.n) (hm : 0 < d.m) (hn' : d'.n = p * d.n) (hm' : d'.m = q * d.m)
    (h : ∀ i < d'.n, ∀ j < d'.m, d'.get i j = d.get (i % d.n) (j % d.m)) :
    (∀ k l : ℤ, Spec.power2 d' (p * k) (q * l) = ((p * q : ℕ) : ℝ) ^ 2 * Spec.power2 d k l) ∧
    ∀ k l : ℤ, ¬((p : ℤ) ∣ k ∧ (q : ℤ) ∣ l) → Spec.power2 d' k l = 0 := by
  have e : ∀ k l : ℤ, dft2 d'.n d'.m (fun i j => (d'.get i j : ℂ)) k l = (if (p : ℤ) ∣ k then (p : ℂ) else 0) * (if (q : ℤ) ∣ l then (q : ℂ) else 0) *
        ∑ i ∈ range d.n, ∑ j ∈ range d.m, (d.get i j : ℂ) * (om (p * d.n) (i * k) * om (q * d.m) (j * l)) := by
    intro k l
    rw [← tile_dft hp hq hn hm (fun i j => (d.get i j : ℂ)) k l]
    unfold dft2
    rw [← hn', ← hm']
    refine sum_congr rfl fun i hi => sum_congr rfl fun j hj => ?_
    beta_reduce
    rw [h i (mem_range.1 hi) j (mem_range.1 hj)]
  constructor
  · intro k l
    unfold Spec.power2
    rw [e, if_pos (dvd_mul_right _ _), if_pos (dvd_mul_right _ _)]
    have e2 : ∑ i ∈ range d.n, ∑ j ∈ range d.m, (d.get i j : ℂ) * (om (p * d.n) (i * (p * k)) * om (q * d.m) (j * (q * l))) =
        dft2 d.n d.m (fun i j => (d.get i j : ℂ)) k l := by
      unfold dft2
      refine sum_congr rfl fun i _ => sum_congr rfl fun j _ => ?_
      rw [om_same hn (Nat.mul_pos hp hn) (k := k) (by push_cast; ring), om_same hm (Nat.mul_pos hq hm) (k := l) (by push_cast; ring)]
    rw [e2, norm_mul, norm_mul, Complex.norm_natCast, Complex.norm_natCast]
    push_cast
    ring
  · intro k l hkl
    unfold Spec.power2
    rw [e]
    by_cases hk : (p : ℤ) ∣ k
    · rw [if_neg fun hl => hkl ⟨hk, hl⟩]
      simp
    · rw [if_neg hk]
      simp

private theorem freq_of_dvd {p n i' : ℕ} (hp : 0 < p) (hn : 0 < n) (hi : i' < p * n) (h : (p : ℤ) ∣ (i' : ℤ) - (p * n / 2 : ℕ)) :
    ∃ i < n, Spec.SameFreq n i (p * n) i' := by
  obtain ⟨k, hk⟩ := h
  have hp' : (0 : ℤ) < p := by exact_mod_cast hp
  have h1 : -(n : ℤ) ≤ 2 * k := by
    by_contra hc
    have : (p : ℤ) * (2 * k) ≤ p * (-(n : ℤ) - 1) := mul_le_mul_of_nonneg_left (by omega) hp'.le
    have hh : ((p * n : ℕ) : ℤ) = p * n := by push_cast; ring
    have e2 : (p : ℤ) * (2 * k) = 2 * (p * k) := by ring
    have e3 : (p : ℤ) * (-(n : ℤ) - 1) = -((p * n : ℕ) : ℤ) - p := by push_cast; ring
    omega
  have h2 : 2 * k < n := by
    by_contra hc
    have : (p : ℤ) * n ≤ p * (2 * k) := mul_le_mul_of_nonneg_left (by omega) hp'.le
    have e2 : (p : ℤ) * (2 * k) = 2 * (p * k) := by ring
    have e3 : (p : ℤ) * n = ((p * n : ℕ) : ℤ) := by push_cast; ring
    omega
  refine ⟨(k + (n / 2 : ℕ)).toNat, by omega, ?_⟩
  unfold Spec.SameFreq
  have e1 : (((k + (n / 2 : ℕ)).toNat : ℕ) : ℤ) = k + (n / 2 : ℕ) := Int.toNat_of_nonneg (by omega)
  generalize n / 2 = c at e1 ⊢
  generalize (k + (c : ℤ)).toNat = x at e1
  generalize p * n / 2 = c' at hk ⊢
  have r1 : (x : ℝ) - c = k := by
    have : (x : ℤ) - c = k := by omega
    exact_mod_cast congrArg (Int.cast (R := ℝ)) this
  have r2 : (i' : ℝ) - c' = p * k := by
    have := congrArg (Int.cast (R := ℝ)) hk
    push_cast at this
    exact this
  have hp0 : (p : ℝ) ≠ 0 := by exact_mod_cast hp.ne'
  rw [r1, r2]
  push_cast
  rw [mul_div_mul_left _ _ hp0]

/-- Both halves of the statement for the indices of a spectrum. -/
theorem tile_index {p q : ℕ} (hp : 0 < p) (hq : 0 < q) {d d' : Arr2 ℝ} (hn : 0 < d.n) (hm : 0 < d.m) (hn' : d'.n = p * d.n) (hm' : d'.m = q * d.m)
    (h : ∀ i < d'.n, ∀ j < d'.m, d'.get i j = d.get (i % d.n) (j % d.m)) {i' j' : ℕ} (hi' : i' < p * d.n) (hj' : j' < q * d.m) :
    (∀ i < d.n, ∀ j < d.m, Spec.SameFreq d.n i (p * d.n) i' → Spec.SameFreq d.m j (q * d.m) j' →
      Spec.power2 d' ((i' : ℤ) - (p * d.n / 2 : ℕ)) ((j' : ℤ) - (q * d.m / 2 : ℕ)) =
        ((p * q : ℕ) : ℝ) ^ 2 * Spec.power2 d ((i : ℤ) - (d.n / 2 : ℕ)) ((j : ℤ) - (d.m / 2 : ℕ))) ∧
    ((∀ i < d.n, ∀ j < d.m, ¬(Spec.SameFreq d.n i (p * d.n) i' ∧ Spec.SameFreq d.m j (q * d.m) j')) →
      Spec.power2 d' ((i' : ℤ) - (p * d.n / 2 : ℕ)) ((j' : ℤ) - (q * d.m / 2 : ℕ)) = 0) := by
  obtain ⟨t1, t2⟩ := tile_power hp hq hn hm hn' hm' h
  constructor
  · intro i _ j _ hfi hfj
    have s : ∀ {p n : ℕ}, 0 < p → 0 < n → ∀ {i i' : ℕ}, Spec.SameFreq n i (p * n) i' →
        (i' : ℤ) - (p * n / 2 : ℕ) = p * ((i : ℤ) - (n / 2 : ℕ)) := by
      intro p n hp hn i i' hf
      have := sameFreq_mul hn (Nat.mul_pos hp hn) hf
      have hn0 : (n : ℤ) ≠ 0 := by exact_mod_cast hn.ne'
      refine mul_right_cancel₀ hn0 (this.trans ?_)
      push_cast
      ring
    rw [s hp hn hfi, s hq hm hfj, t1]
  · intro hno
    refine t2 _ _ ?_
    rintro ⟨h1, h2⟩
    obtain ⟨i, hi, hfi⟩ := freq_of_dvd hp hn hi' h1
    obtain ⟨j, hj, hfj⟩ := freq_of_dvd hq hm hj' h2
    exact hno i hi j hj ⟨hfi, hfj⟩

/-- **Power spectrum.** The two-dimensional spectrum of a repeated map (and its weights, repeated with it): at the frequencies of the map the power is that of the
map times the square of the number of periods, at all other frequencies it is zero. -/
theorem C124_pspec {p q : ℕ} (hp : 0 < p) (hq : 0 < q) (img : Arr2 (Option ℝ)) (hn : 0 < img.n) (hm : 0 < img.m) (w : Option (Arr2 (Option ℝ)))
    (hw : ∀ a, w = some a → a.n = img.n ∧ a.m = img.m) :
    ∃ st st' ps ps', powerSpectrumInit img w = .ok st ∧ powerSpectrumInit (Spec.tiled p q img) (w.map (Spec.tiled p q)) = .ok st' ∧
      computePspec st.weighted none = .ok ps ∧ computePspec st'.weighted none = .ok ps' ∧ ps'.n = p * img.n ∧ ps'.m = q * img.m ∧
      ∀ i' < p * img.n, ∀ j' < q * img.m,
        (∀ i < img.n, ∀ j < img.m, Spec.SameFreq img.n i (p * img.n) i' → Spec.SameFreq img.m j (q * img.m) j' →
          ps'.get i' j' = ((p * q : ℕ) : ℝ) ^ 2 * ps.get i j) ∧
        ((∀ i < img.n, ∀ j < img.m, ¬(Spec.SameFreq img.n i (p * img.n) i' ∧ Spec.SameFreq img.m j (q * img.m) j')) → ps'.get i' j' = 0) := by
  obtain ⟨st, st', e, e', n1, m1, n2, m2, hz⟩ : ∃ st st', powerSpectrumInit img w = .ok st ∧
      powerSpectrumInit (Spec.tiled p q img) (w.map (Spec.tiled p q)) = .ok st' ∧ st.weighted.n = img.n ∧ st.weighted.m = img.m ∧
      st'.weighted.n = p * img.n ∧ st'.weighted.m = q * img.m ∧
      ∀ i < p * img.n, ∀ j < q * img.m, st'.weighted.get i j = st.weighted.get (i % img.n) (j % img.m) := by
    cases w with
    | none =>
      refine ⟨⟨⟨img.n, img.m, fun i j => (fillNan 0 img).get i j * 1⟩, none⟩,
        ⟨⟨p * img.n, q * img.m, fun i j => (fillNan 0 (Spec.tiled p q img)).get i j * 1⟩, none⟩, ?_, ?_, rfl, rfl, rfl, rfl, fun i _ j _ => rfl⟩
      · unfold powerSpectrumInit mul2
        simp only [and_self, if_true]
        rfl
      · unfold powerSpectrumInit mul2
        simp only [Option.map_none, and_self, if_true]
        rfl
    | some a =>
      obtain ⟨a1, a2⟩ := hw a rfl
      refine ⟨⟨⟨img.n, img.m, fun i j => (fillNan 0 img).get i j * (fillNan 0 a).get i j⟩, some ((fillNan 0 a).map some)⟩,
        ⟨⟨p * img.n, q * img.m, fun i j => (fillNan 0 (Spec.tiled p q img)).get i j * (fillNan 0 (Spec.tiled p q a)).get i j⟩,
          some ((fillNan 0 (Spec.tiled p q a)).map some)⟩, ?_, ?_, rfl, rfl, rfl, rfl, ?_⟩
      · unfold powerSpectrumInit mul2
        simp only
        rw [if_pos ⟨a1.symm, a2.symm⟩]
        rfl
      · unfold powerSpectrumInit mul2
        simp only [Option.map_some]
        rw [if_pos ⟨show p * img.n = p * a.n by rw [a1], show q * img.m = q * a.m by rw [a2]⟩]
        rfl
      · intro i _ j _
        show (img.get (i % img.n) (j % img.m)).getD 0 * (a.get (i % a.n) (j % a.m)).getD 0 =
          (img.get (i % img.n) (j % img.m)).getD 0 * (a.get (i % img.n) (j % img.m)).getD 0
        rw [a1, a2]
  obtain ⟨ps, h1, p1, p2, p3⟩ := C02_compute_pspec st.weighted (by omega) (by omega)
  obtain ⟨ps', h1', p1', p2', p3'⟩ := C02_compute_pspec st'.weighted (by rw [n2]; exact Nat.mul_pos hp hn) (by rw [m2]; exact Nat.mul_pos hq hm)
  refine ⟨st, st', ps, ps', e, e', h1, h1', by omega, by omega, fun i' hi' j' hj' => ?_⟩
  rw [p3' i' (by omega) j' (by omega)]
  obtain ⟨u1, u2⟩ := tile_index hp hq (d := st.weighted) (d' := st'.weighted) (by omega) (by omega) (by rw [n1, n2]) (by rw [m1, m2])
    (by rw [n1, m1, n2, m2]; exact hz) (i' := i') (j' := j') (by rw [n1]; exact hi') (by rw [m1]; exact hj')
  rw [n1, m1] at u1 u2
  rw [n2, m2]
  refine ⟨fun i hi j hj hfi hfj => ?_, u2⟩
  rw [p3 i (by omega) j (by omega), n1, m1]
  exact u1 i hi j hj hfi hfj

/-- **VCA.** The same for the spectrum of a cube repeated on the sky. -/
theorem C124_vca {p q : ℕ} (hp : 0 < p) (hq : 0 < q) (cube : Arr3 (Option ℝ)) (hc : 0 < cube.n) (hn : 0 < cube.m) (hm : 0 < cube.p) :
    ∃ ps ps', vcaComputePspec (fillNan3 0 cube) none = .ok ps ∧ vcaComputePspec (fillNan3 0 (Spec.tiledCube p q cube)) none = .ok ps' ∧
      ps'.n = p * cube.m ∧ ps'.m = q * cube.p ∧
      ∀ i' < p * cube.m, ∀ j' < q * cube.p,
        (∀ i < cube.m, ∀ j < cube.p, Spec.SameFreq cube.m i (p * cube.m) i' → Spec.SameFreq cube.p j (q * cube.p) j' →
          ps'.get i' j' = ((p * q : ℕ) : ℝ) ^ 2 * ps.get i j) ∧
        ((∀ i < cube.m, ∀ j < cube.p, ¬(Spec.SameFreq cube.m i (p * cube.m) i' ∧ Spec.SameFreq cube.p j (q * cube.p) j')) → ps'.get i' j' = 0) := by
  obtain ⟨ps, h1, p1, p2, p3⟩ := C03_vca_channel_sum (fillNan3 0 cube) hc hn hm
  obtain ⟨ps', h1', p1', p2', p3'⟩ := C03_vca_channel_sum (fillNan3 0 (Spec.tiledCube p q cube)) hc (show 0 < p * cube.m from Nat.mul_pos hp hn)
    (show 0 < q * cube.p from Nat.mul_pos hq hm)
  refine ⟨ps, ps', h1, h1', p1', p2', fun i' hi' j' hj' => ?_⟩
  have u := fun c => tile_index hp hq (d := Spec.channel (fillNan3 0 cube) c) (d' := Spec.channel (fillNan3 0 (Spec.tiledCube p q cube)) c) hn hm rfl rfl
    (fun i _ j _ => rfl) (i' := i') (j' := j') hi' hj'
  rw [p3' i' hi' j' hj']
  constructor
  · intro i hi j hj hfi hfj
    rw [p3 i hi j hj]
    show (cube.n : ℝ) * _ = _ * ((cube.n : ℝ) * _)
    rw [mul_left_comm]
    congr 1
    rw [mul_sum]
    exact sum_congr rfl fun c _ => (u c).1 i hi j hj hfi hfj
  · intro hno
    show (cube.n : ℝ) * _ = 0
    refine mul_eq_zero_of_right _ (sum_eq_zero fun c _ => ?_)
    exact (u c).2 hno

/-- Two periods of three pixels: every second frequency is one of the map. -/
example : Spec.SameFreq 3 2 (2 * 3) 5 ∧ ∀ i < 3, ¬Spec.SameFreq 3 i (2 * 3) 4 := by
  unfold Spec.SameFreq
  refine ⟨by norm_num, fun i hi => ?_⟩
  interval_cases i <;> norm_num

end TS
