import Verif.Props.C124Pspec

/-! C124: a periodic map or cube shown over several periods. The spectral correlation function. -/

namespace TS
open Finset

/-! ### Shifts in Fourier space -/

private theorem freq_tile {p n k : ℕ} (hp : 0 < p) (hn : 0 < n) : (fftfreq (p * n)).get (p * k) = (fftfreq n).get k := by
  have hp0 : (p : ℝ) ≠ 0 := by exact_mod_cast hp.ne'
  have hc : p * k < (p * n - 1) / 2 + 1 ↔ k < (n - 1) / 2 + 1 := by
    have hpn : 0 < p * n := Nat.mul_pos hp hn
    have e : 2 * k < n ↔ 2 * (p * k) < p * n := by
      rw [show 2 * (p * k) = p * (2 * k) by ring]
      exact (Nat.mul_lt_mul_left hp).symm
    omega
  show (if p * k < (p * n - 1) / 2 + 1 then ((p * k : ℕ) : ℝ) / (p * n : ℕ) else (((p * k : ℕ) : ℝ) - (p * n : ℕ)) / (p * n : ℕ)) =
    if k < (n - 1) / 2 + 1 then (k : ℝ) / n else ((k : ℝ) - n) / n
  refine if_congr hc ?_ ?_
  · push_cast
    rw [mul_div_mul_left _ _ hp0]
  · push_cast
    rw [← mul_sub, mul_div_mul_left _ _ hp0]

/-- Shifting a repeated line by any amount gives the repeated shifted line. -/
private theorem shifter_tile {p n : ℕ} (hp : 0 < p) (hn : 0 < n) {x x' : ℕ → ℝ} (h : ∀ i < p * n, x' i = x (i % n)) (s : ℝ) (j : ℕ) :
    shifter (p * n) x' s j = shifter n x s (j % n) := by
  have hpn : 0 < p * n := Nat.mul_pos hp hn
  have hp0 : (p : ℂ) ≠ 0 := by exact_mod_cast hp.ne'
  have hn0 : (n : ℂ) ≠ 0 := by exact_mod_cast hn.ne'
  unfold shifter
  congr 1
  unfold idft1
  have d : ∀ k : ℤ, dft1 (p * n) (fun i => (x' i : ℂ)) k = (if (p : ℤ) ∣ k then (p : ℂ) else 0) * ∑ i ∈ range n, (x i : ℂ) * om (p * n) (i * k) := by
    intro k
    rw [← tile_one hp hn (fun i => (x i : ℂ)) k]
    unfold dft1
    refine sum_congr rfl fun i hi => ?_
    beta_reduce
    rw [h i (mem_range.1 hi)]
  let H : ℕ → ℂ := fun k => (p : ℂ) * (dft1 n (fun i => (x i : ℂ)) k * Complex.exp (-2 * Real.pi * ((fftfreq n).get k : ℝ) * Complex.I * s) *
    om n (-(((j % n : ℕ) : ℤ) * k)))
  have term : ∀ k ∈ range (n * p), dft1 (p * n) (fun i => (x' i : ℂ)) k * Complex.exp (-2 * Real.pi * ((fftfreq (p * n)).get k : ℝ) * Complex.I * s) *
      om (p * n) (-((j : ℤ) * k)) = if k % p = 0 then H (k / p) else 0 := by
    intro k _
    rw [d]
    by_cases hk : k % p = 0
    · obtain ⟨l, rfl⟩ := Nat.dvd_of_mod_eq_zero hk
      rw [if_pos hk, if_pos (by push_cast; exact dvd_mul_right _ _), Nat.mul_div_cancel_left _ hp, freq_tile hp hn]
      have o1 : ∀ y : ℤ, om (p * n) (y * ((p * l : ℕ) : ℤ)) = om n (y * l) := fun y => om_same hn hpn (by push_cast; ring) y
      have o2 : om (p * n) (-((j : ℤ) * ((p * l : ℕ) : ℤ))) = om n (-(((j % n : ℕ) : ℤ) * l)) := by
        rw [← neg_mul, o1, neg_mul, om_neg, om_neg, Int.natCast_mod, om_mul_emod_left]
      rw [o2]
      simp only [o1]
      show _ = (p : ℂ) * (dft1 n (fun i => (x i : ℂ)) l * _ * _)
      unfold dft1
      ring
    · rw [if_neg hk, if_neg fun hd => hk (Nat.mod_eq_zero_of_dvd (by exact_mod_cast hd))]
      ring
  have tot : ∑ k ∈ range (p * n), dft1 (p * n) (fun i => (x' i : ℂ)) k * Complex.exp (-2 * Real.pi * ((fftfreq (p * n)).get k : ℝ) * Complex.I * s) *
      om (p * n) (-((j : ℤ) * k)) = ∑ k ∈ range n, H k := by
    rw [show range (p * n) = range (n * p) by rw [mul_comm], sum_congr rfl term, sum_flat n p fun k r => if r = 0 then H k else 0]
    refine sum_congr rfl fun k _ => ?_
    rw [sum_ite_eq', if_pos (mem_range.2 hp)]
  rw [tot]
  show 1 / ((p * n : ℕ) : ℂ) * ∑ k ∈ range n, (p : ℂ) * _ = _
  rw [← mul_sum, ← mul_assoc]
  congr 1
  push_cast
  field_simp

private theorem fourier_tile {p n : ℕ} (hp : 0 < p) (hn : 0 < n) {x x' : ℕ → Option ℝ} (h : ∀ i < p * n, x' i = x (i % n)) (s : ℝ) (j : ℕ) :
    (fourierShift ⟨p * n, x'⟩ s).get j = (fourierShift ⟨n, x⟩ s).get (j % n) := by
  show (if 1 / 2 < shifter (p * n) (fun i => if (x' i).isSome then 0 else 1) s j then none else some (shifter (p * n) (fun i => (x' i).getD 0) s j)) =
    if 1 / 2 < shifter n (fun i => if (x i).isSome then 0 else 1) s (j % n) then none else some (shifter n (fun i => (x i).getD 0) s (j % n))
  rw [shifter_tile hp hn (x := fun i => if (x i).isSome then 0 else 1) (fun i hi => by simp only [h i hi]),
    shifter_tile hp hn (x := fun i => (x i).getD 0) (fun i hi => by simp only [h i hi])]

/-! ### The surface -/

/-- `u'` is `u` repeated. -/
private def Tile (p q : ℕ) (u u' : Arr3 (Option ℝ)) : Prop :=
  u'.n = u.n ∧ u'.m = p * u.m ∧ u'.p = q * u.p ∧ ∀ v, ∀ i < p * u.m, ∀ j < q * u.p, u'.get v i j = u.get v (i % u.m) (j % u.p)

private theorem shiftX_tile {p q : ℕ} (hp : 0 < p) {u u' : Arr3 (Option ℝ)} (h : Tile p q u u') (x : ℝ) :
    ∃ t t', scfShiftX u x = .ok t ∧ scfShiftX u' x = .ok t' ∧ Tile p q t t' ∧ t.n = u.n ∧ t.m = u.m ∧ t.p = u.p := by
  obtain ⟨h1, h2, h3, h4⟩ := h
  by_cases hx : x = (⌊x⌋ : ℝ)
  · obtain ⟨t, ht, tn, tm, tp, tg⟩ := scfShiftX_int u ⌊x⌋
    obtain ⟨t', ht', tn', tm', tp', tg'⟩ := scfShiftX_int u' ⌊x⌋
    rw [← hx] at ht ht'
    refine ⟨t, t', ht, ht', ⟨by omega, by rw [tm', tm, h2], by rw [tp', tp, h3], fun v i hi j hj => ?_⟩, tn, tm, tp⟩
    rw [tm] at hi ⊢
    rw [tp] at hj ⊢
    have hm : 0 < u.m := Nat.pos_of_ne_zero fun h => by simp [h] at hi
    rw [tg' v i j (by rw [h2]; exact hi), tg v _ _ (Nat.mod_lt _ hm), h2, h4 v _ (rollIx_lt (by omega) _ _) j hj, roll_tile _ hi]
  · have hx0 : ¬x = 0 := fun h0 => hx (by rw [h0]; simp)
    refine ⟨fourierShift1 u x, fourierShift1 u' x, ?_, ?_, ⟨h1, h2, h3, fun v i hi j hj => ?_⟩, rfl, rfl, rfl⟩
    · unfold scfShiftX
      rw [if_neg hx0, if_neg hx]
    · unfold scfShiftX
      rw [if_neg hx0, if_neg hx]
    · have hi' : i < p * u.m := hi
      have hm : 0 < u.m := Nat.pos_of_ne_zero fun h => by simp [h] at hi'
      show (fourierShift ⟨u'.m, fun i' => u'.get v i' j⟩ x).get i = (fourierShift ⟨u.m, fun i' => u.get v i' (j % u.p)⟩ x).get (i % u.m)
      rw [h2]
      exact fourier_tile hp hm (fun i' hi' => h4 v i' hi' j hj) x i

private theorem shiftY_tile {p q : ℕ} (hq : 0 < q) {u u' : Arr3 (Option ℝ)} (h : Tile p q u u') (y : ℝ) :
    ∃ t t', scfShiftY u y = .ok t ∧ scfShiftY u' y = .ok t' ∧ Tile p q t t' ∧ t.n = u.n ∧ t.m = u.m ∧ t.p = u.p := by
  obtain ⟨h1, h2, h3, h4⟩ := h
  by_cases hy : y = (⌊y⌋ : ℝ)
  · obtain ⟨t, ht, tn, tm, tp, tg⟩ := scfShiftY_int u ⌊y⌋
    obtain ⟨t', ht', tn', tm', tp', tg'⟩ := scfShiftY_int u' ⌊y⌋
    rw [← hy] at ht ht'
    refine ⟨t, t', ht, ht', ⟨by omega, by rw [tm', tm, h2], by rw [tp', tp, h3], fun v i hi j hj => ?_⟩, tn, tm, tp⟩
    rw [tm] at hi ⊢
    rw [tp] at hj ⊢
    have hm : 0 < u.p := Nat.pos_of_ne_zero fun h => by simp [h] at hj
    rw [tg' v i j (by rw [h3]; exact hj), tg v _ _ (Nat.mod_lt _ hm), h3, h4 v i hi _ (rollIx_lt (by omega) _ _), roll_tile _ hj]
  · have hy0 : y ≠ 0 := fun h0 => hy (by rw [h0]; simp)
    refine ⟨fourierShift2 u y, fourierShift2 u' y, ?_, ?_, ⟨h1, h2, h3, fun v i hi j hj => ?_⟩, rfl, rfl, rfl⟩
    · unfold scfShiftY
      rw [if_pos hy0, if_neg hy]
    · unfold scfShiftY
      rw [if_pos hy0, if_neg hy]
    · have hj' : j < q * u.p := hj
      have hm : 0 < u.p := Nat.pos_of_ne_zero fun h => by simp [h] at hj'
      show (fourierShift ⟨u'.p, fun j' => u'.get v i j'⟩ y).get j = (fourierShift ⟨u.p, fun j' => u.get v (i % u.m) j'⟩ y).get (j % u.p)
      rw [h3]
      exact fourier_tile hq hm (fun j' hj' => h4 v i hi j' hj') y j

private theorem scf_value_tiled {p q : ℕ} (hp : 0 < p) (hq : 0 < q) (c : Arr3 (Option ℝ)) (x y : ℝ) :
    scfValue "continuous" (Spec.tiledCube p q c) x y = scfValue "continuous" c x y := by
  obtain ⟨t, t', ht, ht', T1, tn, tm, tp⟩ := shiftX_tile hp (u := c) (u' := Spec.tiledCube p q c) ⟨rfl, rfl, rfl, fun _ _ _ _ _ => rfl⟩ x
  obtain ⟨u, u', hu, hu', ⟨n2, m2, p2, g2⟩, un, um, up⟩ := shiftY_tile hq T1 y
  have hc : ∀ v, ∀ i < p * c.m, ∀ j < q * c.p, u'.get v i j = u.get v (i % c.m) (j % c.p) := by
    rw [um, up, tm, tp] at g2
    exact g2
  have hd : (c.n = u.n ∧ c.m = u.m ∧ c.p = u.p) := ⟨by rw [un, tn], by rw [um, tm], by rw [up, tp]⟩
  have hd' : ((Spec.tiledCube p q c).n = u'.n ∧ (Spec.tiledCube p q c).m = u'.m ∧ (Spec.tiledCube p q c).p = u'.p) :=
    ⟨by rw [n2, un, tn]; rfl, by rw [m2, um, tm]; rfl, by rw [p2, up, tp]; rfl⟩
  unfold scfValue
  rw [ht, ht']
  simp only [bind, Except.bind]
  rw [hu, hu']
  simp only [scfParts, if_neg (show ¬("continuous" = "cut") by decide)]
  rw [scfValues_eq hd, scfValues_eq hd']
  simp only [pure, Except.pure, Except.ok.injEq]
  refine reduce_tile hp hq rfl rfl ?_
  intro i hi j hj
  have hi' : i < p * c.m := hi
  have hj' : j < q * c.p := hj
  have d1 : scfDen (Spec.tiledCube p q c) u' i j = scfDen c u (i % c.m) (j % c.p) := by
    unfold scfDen
    rw [← hd.1, ← hd'.1]
    congr 1
    refine sum_congr rfl fun v _ => ?_
    rw [hc v i hi' j hj']
  have d2 : scfNum (Spec.tiledCube p q c) u' i j = scfNum c u (i % c.m) (j % c.p) := by
    unfold scfNum
    refine sum_congr rfl fun v _ => ?_
    rw [hc v i hi' j hj']
    rfl
  show (if _ then _ else _) = (if _ then _ else _)
  rw [d1, d2]

/-- **SCF.** The surface with continuous boundaries, at all lags, whole or not, is the one of a single period. -/
theorem C124_scf {p q : ℕ} (hp : 0 < p) (hq : 0 < q) (c : Arr3 (Option ℝ)) (lags : Arr1 ℝ) :
    scfSurface "continuous" (Spec.tiledCube p q c) lags = scfSurface "continuous" c lags := by
  have h : scfStep "continuous" (Spec.tiledCube p q c) lags = scfStep "continuous" c lags := by
    funext s n
    unfold scfStep
    simp only [scf_value_tiled hp hq c]
  unfold scfSurface
  rw [h]

/-- A cube of 2 by 1 pixels, repeated, at whole and half lags. -/
example : scfSurface "continuous" (Spec.tiledCube 2 3 ⟨1, 2, 1, fun _ i _ => some ((i : ℝ) + 1)⟩) ⟨5, fun k => (k : ℝ) / 2 - 1⟩ =
    scfSurface "continuous" ⟨1, 2, 1, fun _ i _ => some ((i : ℝ) + 1)⟩ ⟨5, fun k => (k : ℝ) / 2 - 1⟩ :=
  C124_scf (by norm_num) (by norm_num) _ _

end TS
