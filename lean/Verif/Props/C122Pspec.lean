import Verif.Props.C122Cube
import Verif.Props.C02
import Verif.Props.C03

/-! C122: rows and columns of missing pixels around a map or cube. Power spectra. -/

namespace TS
open Finset

namespace Spec

/-- Index `i` of a spectrum along an axis of `n` pixels and index `i'` of one along an axis of `n'` pixels stand for the same frequency per pixel. -/
def SameFreq (n i n' i' : ℕ) : Prop := ((i' : ℝ) - (n' / 2 : ℕ)) / n' = ((i : ℝ) - (n / 2 : ℕ)) / n

/-- A map of numbers within zeros. -/
def InZeros (t l : ℕ) (d d' : Arr2 ℝ) : Prop :=
  (∀ i < d.n, ∀ j < d.m, d'.get (t + i) (l + j) = d.get i j) ∧
  ∀ i < d'.n, ∀ j < d'.m, ¬(t ≤ i ∧ i < t + d.n ∧ l ≤ j ∧ j < l + d.m) → d'.get i j = 0

end Spec

private theorem sum_range_frame (t n b l m r : ℕ) (f : ℕ → ℕ → ℂ)
    (h : ∀ i < t + n + b, ∀ j < l + m + r, ¬(t ≤ i ∧ i < t + n ∧ l ≤ j ∧ j < l + m) → f i j = 0) :
    ∑ i ∈ range (t + n + b), ∑ j ∈ range (l + m + r), f i j = ∑ i ∈ range n, ∑ j ∈ range m, f (t + i) (l + j) := by
  have one : ∀ (t n b : ℕ) (f : ℕ → ℂ), (∀ i < t + n + b, ¬(t ≤ i ∧ i < t + n) → f i = 0) →
      ∑ i ∈ range (t + n + b), f i = ∑ i ∈ range n, f (t + i) := by
    intro t n b f h
    rw [sum_range_add, sum_range_add, sum_eq_zero (s := range t), sum_eq_zero (s := range b), zero_add, add_zero]
    · intro i hi
      have := mem_range.1 hi
      exact h _ (by omega) (by omega)
    · intro i hi
      have := mem_range.1 hi
      exact h _ (by omega) (by omega)
  rw [one t n b]
  · refine sum_congr rfl fun i hi => one l m r _ fun j hj ho => ?_
    have := mem_range.1 hi
    exact h _ (by omega) j hj (by omega)
  · intro i hi ho
    exact sum_eq_zero fun j hj => h i hi j (mem_range.1 hj) (by omega)

theorem om_same {n n' : ℕ} (hn : 0 < n) (hn' : 0 < n') {k k' : ℤ} (h : k' * n = k * n') (x : ℤ) : om n' (x * k') = om n (x * k) := by
  unfold om
  have h1 : (n : ℂ) ≠ 0 := by exact_mod_cast hn.ne'
  have h2 : (n' : ℂ) ≠ 0 := by exact_mod_cast hn'.ne'
  have h3 : (k' : ℂ) * n = k * n' := by exact_mod_cast h
  congr 2
  rw [div_eq_div_iff h2 h1]
  push_cast
  linear_combination (2 * Real.pi * Complex.I * x) * h3

/-- Zeros around a map leave its power at every frequency that both grids have. -/
private theorem power_inZeros {t b l r : ℕ} {d d' : Arr2 ℝ} (hn : 0 < d.n) (hm : 0 < d.m) (hn' : d'.n = t + d.n + b) (hm' : d'.m = l + d.m + r)
    (h : Spec.InZeros t l d d') {k k' q q' : ℤ} (hk : k' * d.n = k * d'.n) (hq : q' * d.m = q * d'.m) : Spec.power2 d' k' q' = Spec.power2 d k q := by
  unfold Spec.power2
  have e : dft2 d'.n d'.m (fun i j => (d'.get i j : ℂ)) k' q' =
      om d.n (t * k) * om d.m (l * q) * dft2 d.n d.m (fun i j => (d.get i j : ℂ)) k q := by
    have hd1 : 0 < d'.n := by omega
    have hd2 : 0 < d'.m := by omega
    unfold dft2
    have s : ∑ i ∈ range d'.n, ∑ j ∈ range d'.m, (d'.get i j : ℂ) * (om d'.n (i * k') * om d'.m (j * q')) =
        ∑ i ∈ range d.n, ∑ j ∈ range d.m, (d'.get (t + i) (l + j) : ℂ) * (om d'.n ((t + i : ℕ) * k') * om d'.m ((l + j : ℕ) * q')) := by
      rw [show range d'.n = range (t + d.n + b) by rw [hn'], show range d'.m = range (l + d.m + r) by rw [hm']]
      refine sum_range_frame t d.n b l d.m r _ fun i hi j hj ho => ?_
      rw [h.2 i (by omega) j (by omega) ho]
      simp
    rw [s, mul_sum]
    refine sum_congr rfl fun i hi => ?_
    rw [mul_sum]
    refine sum_congr rfl fun j hj => ?_
    rw [h.1 i (mem_range.1 hi) j (mem_range.1 hj), om_same hn hd1 hk, om_same hm hd2 hq]
    push_cast
    rw [add_mul, add_mul, om_add, om_add]
    ring
  rw [e, norm_mul, norm_mul, norm_om, norm_om, one_mul, one_mul]

theorem sameFreq_mul {n i n' i' : ℕ} (hn : 0 < n) (hn' : 0 < n') (h : Spec.SameFreq n i n' i') :
    ((i' : ℤ) - (n' / 2 : ℕ)) * n = ((i : ℤ) - (n / 2 : ℕ)) * n' := by
  unfold Spec.SameFreq at h
  have h1 : (n : ℝ) ≠ 0 := by exact_mod_cast hn.ne'
  have h2 : (n' : ℝ) ≠ 0 := by exact_mod_cast hn'.ne'
  rw [div_eq_div_iff h2 h1] at h
  generalize n / 2 = c at h ⊢
  generalize n' / 2 = c' at h ⊢
  have h3 : ((((i' : ℤ) - c') * n : ℤ) : ℝ) = (((i : ℤ) - c) * n' : ℤ) := by
    push_cast
    exact h
  exact Int.cast_injective h3

/-- **Power spectrum (partial).** A frame of missing pixels around a map, and around its weights if there are any, keeps the power at every frequency that
the spectra of both have; in particular, when a side is made a whole number of times as long, at all frequencies of the map. Missing: the frequencies in
between, which only the spectrum of the framed map has, and with them the averages over bins and the slopes. -/
theorem C122_pspec_partial (t b l r : ℕ) (img : Arr2 (Option ℝ)) (hn : 0 < img.n) (hm : 0 < img.m) (w : Option (Arr2 (Option ℝ)))
    (hw : ∀ a, w = some a → a.n = img.n ∧ a.m = img.m) :
    ∃ st st' ps ps', powerSpectrumInit img w = .ok st ∧ powerSpectrumInit (Spec.framed t b l r img) (w.map (Spec.framed t b l r)) = .ok st' ∧
      computePspec st.weighted none = .ok ps ∧ computePspec st'.weighted none = .ok ps' ∧ ps.n = img.n ∧ ps.m = img.m ∧
      ps'.n = t + img.n + b ∧ ps'.m = l + img.m + r ∧
      ∀ i < img.n, ∀ j < img.m, ∀ i' < t + img.n + b, ∀ j' < l + img.m + r, Spec.SameFreq img.n i (t + img.n + b) i' →
        Spec.SameFreq img.m j (l + img.m + r) j' → ps'.get i' j' = ps.get i j := by
  obtain ⟨st, st', e, e', n1, m1, n2, m2, hz⟩ : ∃ st st', powerSpectrumInit img w = .ok st ∧
      powerSpectrumInit (Spec.framed t b l r img) (w.map (Spec.framed t b l r)) = .ok st' ∧ st.weighted.n = img.n ∧ st.weighted.m = img.m ∧
      st'.weighted.n = t + img.n + b ∧ st'.weighted.m = l + img.m + r ∧ Spec.InZeros t l st.weighted st'.weighted := by
    cases w with
    | none =>
      refine ⟨⟨⟨img.n, img.m, fun i j => (fillNan 0 img).get i j * 1⟩, none⟩,
        ⟨⟨t + img.n + b, l + img.m + r, fun i j => (fillNan 0 (Spec.framed t b l r img)).get i j * 1⟩, none⟩, ?_, ?_, rfl, rfl, rfl, rfl, ?_, ?_⟩
      · unfold powerSpectrumInit mul2
        simp only [and_self, if_true]
        rfl
      · unfold powerSpectrumInit mul2
        simp only [Option.map_none, and_self, if_true]
        rfl
      · intro i hi j hj
        show ((Spec.framed t b l r img).get (t + i) (l + j)).getD 0 * 1 = (img.get i j).getD 0 * 1
        rw [framed_in t b l r img hi hj]
      · intro i _ j _ ho
        show ((Spec.framed t b l r img).get i j).getD 0 * 1 = 0
        rw [framed_out t b l r img ho]
        simp
    | some a =>
      obtain ⟨a1, a2⟩ := hw a rfl
      refine ⟨⟨⟨img.n, img.m, fun i j => (fillNan 0 img).get i j * (fillNan 0 a).get i j⟩, some ((fillNan 0 a).map some)⟩,
        ⟨⟨t + img.n + b, l + img.m + r, fun i j => (fillNan 0 (Spec.framed t b l r img)).get i j * (fillNan 0 (Spec.framed t b l r a)).get i j⟩,
          some ((fillNan 0 (Spec.framed t b l r a)).map some)⟩, ?_, ?_, rfl, rfl, rfl, rfl, ?_, ?_⟩
      · unfold powerSpectrumInit mul2
        simp only
        rw [if_pos ⟨a1.symm, a2.symm⟩]
        rfl
      · unfold powerSpectrumInit mul2
        simp only [Option.map_some]
        rw [if_pos ⟨show t + img.n + b = t + a.n + b by rw [a1], show l + img.m + r = l + a.m + r by rw [a2]⟩]
        rfl
      · intro i hi j hj
        show ((Spec.framed t b l r img).get (t + i) (l + j)).getD 0 * ((Spec.framed t b l r a).get (t + i) (l + j)).getD 0 =
          (img.get i j).getD 0 * (a.get i j).getD 0
        rw [framed_in t b l r img hi hj, framed_in t b l r a (a1 ▸ hi) (a2 ▸ hj)]
      · intro i _ j _ ho
        show ((Spec.framed t b l r img).get i j).getD 0 * ((Spec.framed t b l r a).get i j).getD 0 = 0
        rw [framed_out t b l r img ho]
        simp
  obtain ⟨ps, h1, p1, p2, p3⟩ := C02_compute_pspec st.weighted (by omega) (by omega)
  obtain ⟨ps', h1', p1', p2', p3'⟩ := C02_compute_pspec st'.weighted (by omega) (by omega)
  refine ⟨st, st', ps, ps', e, e', h1, h1', by omega, by omega, by omega, by omega, fun i hi j hj i' hi' j' hj' hfi hfj => ?_⟩
  rw [p3 i (by omega) j (by omega), p3' i' (by omega) j' (by omega)]
  have s1 := sameFreq_mul hn (by omega) hfi
  have s2 := sameFreq_mul hm (by omega) hfj
  refine power_inZeros (b := b) (r := r) (by omega) (by omega) (by omega) (by omega) hz ?_ ?_
  · rw [n1, n2]
    exact s1
  · rw [m1, m2]
    exact s2

/-- **VCA (partial).** The same for the spectrum of a cube, missing voxels being zeros. Missing: as above. -/
theorem C122_vca_partial (t b l r : ℕ) (cube : Arr3 (Option ℝ)) (hc : 0 < cube.n) (hn : 0 < cube.m) (hm : 0 < cube.p) :
    ∃ ps ps', vcaComputePspec (fillNan3 0 cube) none = .ok ps ∧ vcaComputePspec (fillNan3 0 (Spec.framedCube t b l r cube)) none = .ok ps' ∧
      ps.n = cube.m ∧ ps.m = cube.p ∧ ps'.n = t + cube.m + b ∧ ps'.m = l + cube.p + r ∧
      ∀ i < cube.m, ∀ j < cube.p, ∀ i' < t + cube.m + b, ∀ j' < l + cube.p + r, Spec.SameFreq cube.m i (t + cube.m + b) i' →
        Spec.SameFreq cube.p j (l + cube.p + r) j' → ps'.get i' j' = ps.get i j := by
  obtain ⟨ps, h1, p1, p2, p3⟩ := C03_vca_channel_sum (fillNan3 0 cube) hc hn hm
  obtain ⟨ps', h1', p1', p2', p3'⟩ := C03_vca_channel_sum (fillNan3 0 (Spec.framedCube t b l r cube)) hc (show 0 < t + cube.m + b by omega)
    (show 0 < l + cube.p + r by omega)
  refine ⟨ps, ps', h1, h1', p1, p2, p1', p2', fun i hi j hj i' hi' j' hj' hfi hfj => ?_⟩
  rw [p3 i hi j hj, p3' i' hi' j' hj']
  have hz : ∀ c, Spec.InZeros t l (Spec.channel (fillNan3 0 cube) c) (Spec.channel (fillNan3 0 (Spec.framedCube t b l r cube)) c) := by
    intro c
    constructor
    · intro i hi j hj
      have hi : i < cube.m := hi
      have hj : j < cube.p := hj
      show ((if _ then _ else _ : Option ℝ)).getD 0 = (cube.get c i j).getD 0
      rw [if_pos (by omega), Nat.add_sub_cancel_left, Nat.add_sub_cancel_left]
    · intro i _ j _ ho
      have ho : ¬(t ≤ i ∧ i < t + cube.m ∧ l ≤ j ∧ j < l + cube.p) := ho
      show ((if _ then _ else _ : Option ℝ)).getD 0 = 0
      rw [if_neg ho]
      rfl
  show (cube.n : ℝ) * _ = (cube.n : ℝ) * _
  congr 1
  refine sum_congr rfl fun c _ => ?_
  exact power_inZeros (t := t) (b := b) (l := l) (r := r) hn hm rfl rfl (hz c) (sameFreq_mul hn (Nat.zero_lt_of_lt hi') hfi)
    (sameFreq_mul hm (Nat.zero_lt_of_lt hj') hfj)

/-- A map of three pixels framed to six: its lowest frequency is the second of the framed map, and the zero frequencies agree. -/
example : Spec.SameFreq 3 2 6 5 ∧ Spec.SameFreq 3 1 6 3 ∧ ¬Spec.SameFreq 3 2 6 4 := by
  unfold Spec.SameFreq
  norm_num

end TS
