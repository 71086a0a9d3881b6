import Verif.Lemmas.Scf

/-! C25 — the SCF surface is bounded, 1 at zero lag, symmetric and scale free. -/

namespace TS
open Finset

/-- Whatever the cube, the lags (fractional lags included) and the boundary treatment, the surface is
computed without the "correlation above 1" error and every value that is not NaN lies in `[1 - √2, 1]`.
For `cut`, lags longer than the map make numpy raise on incompatible slices, hence `hfit`. -/
theorem C25_bounded (boundary : String) (hb : boundary = "continuous" ∨ boundary = "cut")
    (data : Arr3 (Option ℝ)) (lags : Arr1 ℝ)
    (hfit : boundary = "cut" → ∀ k < lags.n, |⌈lags.get k⌉| ≤ data.m ∧ |⌈lags.get k⌉| ≤ data.p) :
    ∃ s, scfSurface boundary data lags = .ok s ∧ s.n = lags.n ∧ s.m = lags.n ∧
      ∀ j < lags.n, ∀ i < lags.n, ∀ r, s.get j i = some r → 1 - Real.sqrt 2 ≤ r ∧ r ≤ 1 := by
  have h : ∀ i j, ∃ v, i < lags.n → j < lags.n →
      scfValue boundary data (lags.get i) (lags.get j) = .ok v ∧
        ∀ r, v = some r → 1 - Real.sqrt 2 ≤ r ∧ r ≤ 1 := by
    intro i j
    by_cases hij : i < lags.n ∧ j < lags.n
    · obtain ⟨v, hv⟩ := scfValue_bounds (boundary := boundary) (data := data) (x := lags.get i)
        (y := lags.get j) (fun hc => hfit hc i hij.1) (fun hc => hfit hc j hij.2)
      exact ⟨v, fun _ _ => hv⟩
    · exact ⟨none, fun h1 h2 => absurd ⟨h1, h2⟩ hij⟩
  choose val hval using h
  obtain ⟨s, hs, hn, hm, hg⟩ := scfSurface_eq hb (val := val)
    (fun i hi j hj => ⟨(hval i j hi hj).1, fun r hr => ((hval i j hi hj).2 r hr).2⟩)
  refine ⟨s, hs, hn, hm, ?_⟩
  intro j hj i hi r hr
  rw [hg j hj i hi] at hr
  exact (hval i j hi hj).2 r hr

/-- A boundary treatment other than the two documented ones is refused. -/
theorem C25_boundary_checked (boundary : String) (hb : boundary ≠ "continuous" ∧ boundary ≠ "cut")
    (data : Arr3 (Option ℝ)) (lags : Arr1 ℝ) :
    scfSurface boundary data lags = .error .valueError := by
  unfold scfSurface
  rw [if_neg (by tauto)]

theorem spec_scf_le (data : Arr3 (Option ℝ)) (P : Finset (Spec.Pix × Spec.Pix)) (r : ℝ)
    (h : Spec.scf data P = some r) : r ≤ 1 := by
  unfold Spec.scf at h
  simp only at h
  split_ifs at h
  rw [← Option.some.inj h]
  linarith [Real.sqrt_nonneg ((∑ pq ∈ P.filter (fun pq =>
    Spec.power data pq.1 + Spec.power data pq.2 ≠ 0), Spec.sqDiff data pq.1 pq.2 /
      (Spec.power data pq.1 + Spec.power data pq.2)) / ((P.filter (fun pq =>
    Spec.power data pq.1 + Spec.power data pq.2 ≠ 0)).card : ℝ))]

/-- For continuous boundaries and whole-pixel lags the entry in row `j`, column `i` is the SCF of the
pairs of pixels separated, on the periodic map, by lag `i` along the first and lag `j` along the second
sky axis. -/
theorem C25_surface_values (data : Arr3 (Option ℝ)) (lag : Arr1 ℤ) :
    ∃ s, scfSurface "continuous" data (lag.map (fun k : ℤ => (k : ℝ))) = .ok s ∧
      s.n = lag.n ∧ s.m = lag.n ∧ ∀ j < lag.n, ∀ i < lag.n,
        s.get j i = Spec.scf data (Spec.periodicPairs data.m data.p (lag.get i) (lag.get j)) := by
  obtain ⟨s, hs, hn, hm, hg⟩ := scfSurface_eq (boundary := "continuous") (Or.inl rfl) (data := data)
    (lags := lag.map (fun k : ℤ => (k : ℝ)))
    (val := fun i j => Spec.scf data (Spec.periodicPairs data.m data.p (lag.get i) (lag.get j)))
    (fun i _ j _ => ⟨scfValue_continuous data (lag.get i) (lag.get j), fun r => spec_scf_le _ _ r⟩)
  exact ⟨s, hs, hn, hm, hg⟩

theorem spec_sqDiff_self (data : Arr3 (Option ℝ)) (p : Spec.Pix) : Spec.sqDiff data p p = 0 := by
  unfold Spec.sqDiff
  apply sum_eq_zero; intro v _
  cases data.get v p.1 p.2 <;> simp

theorem spec_sqDiff_comm (data : Arr3 (Option ℝ)) (p q : Spec.Pix) :
    Spec.sqDiff data p q = Spec.sqDiff data q p := by
  unfold Spec.sqDiff
  apply sum_congr rfl; intro v _
  cases data.get v p.1 p.2 <;> cases data.get v q.1 q.2 <;> simp; ring

theorem periodic_zero {m p : ℕ} {pq : Spec.Pix × Spec.Pix} (h : pq ∈ Spec.periodicPairs m p 0 0) :
    pq.1 = pq.2 := by
  classical
  rw [periodicPairs_image] at h
  obtain ⟨⟨i, j⟩, hij, rfl⟩ := mem_image.1 h
  simp only [mem_product, mem_range] at hij
  simp only [rollIx_zero hij.1, rollIx_zero hij.2]

/-- Zero lag gives exactly 1 as soon as one line of sight carries signal. -/
theorem C25_zero_lag (data : Arr3 (Option ℝ)) (lag : Arr1 ℤ) (s : Arr2 (Option ℝ))
    (hs : scfSurface "continuous" data (lag.map (fun k : ℤ => (k : ℝ))) = .ok s)
    (i j : ℕ) (hi : i < lag.n) (hj : j < lag.n) (h0 : lag.get i = 0) (h0' : lag.get j = 0)
    (hsig : ∃ v < data.n, ∃ a < data.m, ∃ b < data.p, ∃ t, data.get v a b = some t ∧ t ≠ 0) :
    s.get j i = some 1 := by
  obtain ⟨s', hs', _, _, hg⟩ := C25_surface_values data lag
  rw [hs'] at hs
  cases hs
  rw [hg j hj i hi, h0, h0']
  obtain ⟨v, hv, a, ha, b, hb, t, ht, hne⟩ := hsig
  unfold Spec.scf
  simp only
  have hmem : (((a, b) : Spec.Pix), ((a, b) : Spec.Pix)) ∈ Spec.periodicPairs data.m data.p 0 0 := by
    simp [Spec.periodicPairs, ha, hb]
  have hpow : 0 < Spec.power data (a, b) := by
    rw [spec_power]
    apply sum_pos' (fun _ _ => sqO_nonneg _)
    refine ⟨v, mem_range.2 hv, ?_⟩
    simp only [ht, sqO, Option.map_some, Option.getD_some]
    positivity
  rw [if_neg]
  · congr 1
    rw [sum_eq_zero, zero_div, Real.sqrt_zero, sub_zero]
    intro pq hpq
    rw [periodic_zero (mem_filter.1 hpq).1, spec_sqDiff_self, zero_div]
  · intro he
    have : (((a, b) : Spec.Pix), ((a, b) : Spec.Pix)) ∈ (∅ : Finset (Spec.Pix × Spec.Pix)) := by
      rw [← he, mem_filter]
      exact ⟨hmem, by simp only; linarith [hpow] |> ne_of_gt⟩
    simp at this

open Classical in
theorem spec_scf_swap (data : Arr3 (Option ℝ)) (P : Finset (Spec.Pix × Spec.Pix)) :
    Spec.scf data (P.image Prod.swap) = Spec.scf data P := by
  have hf : (P.image Prod.swap).filter
      (fun pq => Spec.power data pq.1 + Spec.power data pq.2 ≠ 0) =
      (P.filter (fun pq => Spec.power data pq.1 + Spec.power data pq.2 ≠ 0)).image Prod.swap := by
    rw [filter_image]
    congr 1
    apply filter_congr; intro x _
    simp only [Prod.fst_swap, Prod.snd_swap, add_comm]
  unfold Spec.scf
  simp only [hf, card_image_of_injective _ Prod.swap_injective, image_eq_empty]
  rw [sum_image (Prod.swap_injective.injOn)]
  simp only [Prod.fst_swap, Prod.snd_swap]
  split_ifs with h
  · rfl
  · congr 4
    apply sum_congr rfl; intro x _
    rw [spec_sqDiff_comm, add_comm]

open Classical in
theorem periodicPairs_neg (m p : ℕ) (k l : ℤ) :
    Spec.periodicPairs m p (-k) (-l) = (Spec.periodicPairs m p k l).image Prod.swap := by
  ext ⟨⟨a, b⟩, ⟨c, d⟩⟩
  simp only [Spec.periodicPairs, mem_image, mem_filter, mem_product, mem_range, Prod.exists,
    Prod.swap_prod_mk, Prod.mk.injEq]
  have e : ∀ n : ℕ, ∀ x y : ℕ, ∀ s : ℤ, (n : ℤ) ∣ (x : ℤ) - (y + -s) ↔ (n : ℤ) ∣ (y : ℤ) - (x + s) := by
    intro n x y s
    rw [← dvd_neg]
    ring_nf
  constructor
  · rintro ⟨⟨⟨ha, hb⟩, hc, hd⟩, h1, h2⟩
    exact ⟨c, d, a, b, ⟨⟨⟨hc, hd⟩, ha, hb⟩, (e _ _ _ _).1 h1, (e _ _ _ _).1 h2⟩, ⟨rfl, rfl⟩, rfl, rfl⟩
  · rintro ⟨c', d', a', b', ⟨⟨⟨hc, hd⟩, ha, hb⟩, h1, h2⟩, ⟨rfl, rfl⟩, rfl, rfl⟩
    exact ⟨⟨⟨ha, hb⟩, hc, hd⟩, (e _ _ _ _).2 h1, (e _ _ _ _).2 h2⟩

/-- On the periodic map the value at a lag equals the value at the opposite lag. -/
theorem C25_symmetric (data : Arr3 (Option ℝ)) (lag : Arr1 ℤ) (s : Arr2 (Option ℝ))
    (hs : scfSurface "continuous" data (lag.map (fun k : ℤ => (k : ℝ))) = .ok s)
    (i j i' j' : ℕ) (hi : i < lag.n) (hj : j < lag.n) (hi' : i' < lag.n) (hj' : j' < lag.n)
    (h1 : lag.get i' = -lag.get i) (h2 : lag.get j' = -lag.get j) : s.get j' i' = s.get j i := by
  obtain ⟨s', hs', _, _, hg⟩ := C25_surface_values data lag
  rw [hs'] at hs
  cases hs
  rw [hg j' hj' i' hi', hg j hj i hi, h1, h2, periodicPairs_neg, spec_scf_swap]

/-- The default lags are symmetric about zero, so the surface is symmetric about its centre. -/
theorem C25_default_lags_symmetric (data : Arr3 (Option ℝ)) (size : ℕ) (s : Arr2 (Option ℝ))
    (hs : scfSurface "continuous" data ((scfDefaultLags size).map (fun k : ℤ => (k : ℝ))) = .ok s)
    (i j : ℕ) (hi : i < (scfDefaultLags size).n) (hj : j < (scfDefaultLags size).n) :
    s.get ((scfDefaultLags size).n - 1 - j) ((scfDefaultLags size).n - 1 - i) = s.get j i := by
  have key : ∀ k < (scfDefaultLags size).n,
      (scfDefaultLags size).get ((scfDefaultLags size).n - 1 - k) = -(scfDefaultLags size).get k := by
    intro k hk
    simp only [scfDefaultLags] at hk ⊢
    split_ifs at hk ⊢ with h <;> omega
  exact C25_symmetric data _ s hs i j _ _ hi hj (by omega) (by omega) (key i hi) (key j hj)

/-- Lags given by the caller: an odd number of lags is used as given; an even number loses its last
lag, so that the number of lags used is odd and each is the given one at the same position. -/
theorem C25_given_lags (lags : Arr1 ℝ) (h0 : 0 < lags.n) :
    (scfGivenLags lags).n % 2 = 1 ∧ (scfGivenLags lags).n ≤ lags.n ∧
    lags.n ≤ (scfGivenLags lags).n + 1 ∧
    ∀ i, (scfGivenLags lags).get i = lags.get i := by
  unfold scfGivenLags
  split
  · rename_i h
    have hr : (PySlice.resolve ⟨none, some (-1), 1⟩ lags.n) = ⟨0, 1, lags.n - 1⟩ := by
      simp only [PySlice.resolve, adjustIx]
      simp only [show ¬ ((1 : ℤ) < 0) by decide, decide_false, Bool.false_eq_true, if_false,
        show ((-1 : ℤ) < 0) by decide, if_true, show ¬ ((-1 : ℤ) + lags.n < 0) by omega,
        show (0 : ℤ) < -1 + lags.n by omega]
      congr 1
      omega
    simp only [Arr1.slice, hr]
    refine ⟨by omega, by omega, by omega, fun i => ?_⟩
    simp [SliceIx.ix]
  · rename_i h
    exact ⟨by omega, le_refl _, by omega, fun _ => rfl⟩

/-- Three lags are used as given; four lags lose the last. -/
example : (scfGivenLags ⟨3, fun i => (i : ℝ) - 1⟩).n = 3 ∧ (scfGivenLags ⟨4, fun i => (i : ℝ) - 1⟩).n = 3 := by
  have h3 := C25_given_lags ⟨3, fun i => (i : ℝ) - 1⟩ (by norm_num)
  have h4 := C25_given_lags ⟨4, fun i => (i : ℝ) - 1⟩ (by norm_num)
  simp only at h3 h4
  omega

/-! ### Scale invariance -/

/-- Multiplication of every value by `c`. -/
noncomputable def scaleO (c : ℝ) (v : Option ℝ) : Option ℝ := v.map (fun t => c * t)

theorem shifter_scale (n : ℕ) (c : ℝ) (x : ℕ → ℝ) (s : ℝ) (j : ℕ) :
    shifter n (fun i => c * x i) s j = c * shifter n x s j := by
  unfold shifter
  have h1 : ∀ k, dft1 n (fun i => ((c * x i : ℝ) : ℂ)) k = (c : ℂ) * dft1 n (fun i => ((x i : ℝ) : ℂ)) k := by
    intro k
    have := dft1_const_mul n (c : ℂ) (fun i => ((x i : ℝ) : ℂ)) k
    rw [← this]
    push_cast; rfl
  simp only [h1]
  unfold idft1
  rw [← Complex.re_ofReal_mul]
  congr 1
  rw [mul_left_comm, mul_sum (a := (c : ℂ))]
  congr 1
  apply sum_congr rfl; intro k _
  simp only
  ring

theorem fourierShift_scale (x : Arr1 (Option ℝ)) (c s : ℝ) (j : ℕ) :
    (fourierShift (x.map (scaleO c)) s).get j = scaleO c ((fourierShift x s).get j) := by
  show (if 1 / 2 < shifter x.n (fun i => if (scaleO c (x.get i)).isSome then 0 else 1) s j then none
    else some (shifter x.n (fun i => (scaleO c (x.get i)).getD 0) s j)) = scaleO c
    (if 1 / 2 < shifter x.n (fun i => if (x.get i).isSome then 0 else 1) s j then none
    else some (shifter x.n (fun i => (x.get i).getD 0) s j))
  have h1 : (fun i => if (scaleO c (x.get i)).isSome then (0 : ℝ) else 1)
      = fun i => if (x.get i).isSome then 0 else 1 := by
    funext i; simp [scaleO]
  have h2 : (fun i => (scaleO c (x.get i)).getD 0) = fun i => c * (x.get i).getD 0 := by
    funext i; cases x.get i <;> simp [scaleO]
  rw [h1, h2, shifter_scale]
  split_ifs <;> rfl

theorem shiftX_scale (data : Arr3 (Option ℝ)) (c x : ℝ) :
    scfShiftX (data.map (scaleO c)) x = (scfShiftX data x).map (fun t => t.map (scaleO c)) := by
  unfold scfShiftX
  split_ifs
  · rfl
  · rfl
  · show Except.ok _ = Except.ok _
    congr 1
    unfold fourierShift1 Arr3.map
    simp only [Arr3.mk.injEq, true_and]
    funext v i j
    exact fourierShift_scale ⟨data.m, fun i' => data.get v i' j⟩ c x i

theorem shiftY_scale (data : Arr3 (Option ℝ)) (c x : ℝ) :
    scfShiftY (data.map (scaleO c)) x = (scfShiftY data x).map (fun t => t.map (scaleO c)) := by
  unfold scfShiftY
  split_ifs
  · rfl
  · show Except.ok _ = Except.ok _
    congr 1
    unfold fourierShift2 Arr3.map
    simp only [Arr3.mk.injEq, true_and]
    funext v i j
    exact fourierShift_scale ⟨data.p, fun j' => data.get v i j'⟩ c x j
  · rfl

theorem values_scale (a b : Arr3 (Option ℝ)) {c : ℝ} (hc : c ≠ 0) :
    scfValues (a.map (scaleO c)) (b.map (scaleO c)) = scfValues a b := by
  by_cases h : a.n = b.n ∧ a.m = b.m ∧ a.p = b.p
  · rw [scfValues_eq h, scfValues_eq (a := a.map (scaleO c)) (b := b.map (scaleO c)) h]
    have hsq : ∀ v : Option ℝ, (sqO (scaleO c v)).getD 0 = c ^ 2 * (sqO v).getD 0 := by
      intro v; cases v <;> simp [sqO, scaleO]; ring
    have hden : ∀ i j, scfDen (a.map (scaleO c)) (b.map (scaleO c)) i j = c ^ 2 * scfDen a b i j := by
      intro i j
      unfold scfDen
      rw [mul_add, mul_sum, mul_sum]
      simp only [Arr3.map, hsq]
    have hnum : ∀ i j, scfNum (a.map (scaleO c)) (b.map (scaleO c)) i j = c ^ 2 * scfNum a b i j := by
      intro i j
      unfold scfNum
      rw [mul_sum]
      apply sum_congr rfl; intro v _
      rw [← hsq]
      congr 2
      simp only [Arr3.map]
      cases a.get v i j <;> cases b.get v i j <;> simp [subO, scaleO, bind]; ring
    congr 1
    show (⟨a.m, a.p, _⟩ : Arr2 (Option ℝ)) = ⟨a.m, a.p, _⟩
    congr 1
    funext i j
    rw [hden, hnum, mul_div_mul_left _ _ (pow_ne_zero 2 hc)]
    simp [hc]
  · unfold scfValues Arr3.zip
    rw [if_neg h, if_neg (by exact h)]
    rfl

theorem scfValue_scale (boundary : String) (data : Arr3 (Option ℝ)) {c : ℝ} (hc : c ≠ 0) (x y : ℝ) :
    scfValue boundary (data.map (scaleO c)) x y = scfValue boundary data x y := by
  obtain ⟨t, ht, _⟩ := scfShiftX_ok data x
  obtain ⟨u, hu, _⟩ := scfShiftY_ok t y
  unfold scfValue
  simp only [shiftX_scale, ht, Except.map, bind, Except.bind, shiftY_scale, hu]
  have hp : scfParts boundary (data.map (scaleO c)) (u.map (scaleO c)) x y =
      ((scfParts boundary data u x y).1.map (scaleO c), (scfParts boundary data u x y).2.map (scaleO c)) := by
    unfold scfParts
    split_ifs <;> rfl
  rw [hp]
  simp only [values_scale _ _ hc]

/-- Multiplying the cube by a non-zero constant changes nothing: same surface, same errors, for every
boundary treatment and any (also fractional) lags. -/
theorem C25_scale_free (boundary : String) (data : Arr3 (Option ℝ)) (lags : Arr1 ℝ) (c : ℝ) (hc : c ≠ 0) :
    scfSurface boundary (data.map (fun v => v.map (fun t => c * t))) lags
      = scfSurface boundary data lags := by
  have : scfStep boundary (data.map (scaleO c)) lags = scfStep boundary data lags := by
    funext s n
    unfold scfStep
    simp only [scfValue_scale boundary data hc]
  show scfSurface boundary (data.map (scaleO c)) lags = _
  unfold scfSurface
  rw [this]

/-- Non-vacuity: a two-channel cube with signal and a missing value, lags -1, 0, 1. -/
example : (∃ v < 2, ∃ a < 2, ∃ b < 2, ∃ t,
    (⟨2, 2, 2, fun v i j => if v = 0 ∧ i = 0 then none else some ((v + i + j : ℕ) : ℝ)⟩ :
      Arr3 (Option ℝ)).get v a b = some t ∧ t ≠ 0) ∧
    (scfDefaultLags 4).n = 3 ∧ (scfDefaultLags 4).get 0 = -1 ∧ (scfDefaultLags 4).get 1 = 0 := by
  refine ⟨⟨1, by norm_num, 1, by norm_num, 1, by norm_num, 3, ?_, by norm_num⟩, by decide, by decide,
    by decide⟩
  norm_num

end TS
