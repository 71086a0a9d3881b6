import Verif.Model.Scf
import Verif.Spec.Scf
import Verif.Lemmas.Loop
import Verif.Lemmas.Fourier
import Verif.Lemmas.Slices
import Verif.Props.C21

/-! Facts about the SCF model. -/

namespace TS
open Finset

theorem sqDiff_term_le (a b : Option ℝ) :
    (sqO (subO a b)).getD 0 ≤ 2 * ((sqO a).getD 0 + (sqO b).getD 0) := by
  cases a with
  | none =>
    cases b with
    | none => simp [sqO, subO, bind]
    | some y => simp [sqO, subO, bind]; positivity
  | some x =>
    cases b with
    | none => simp [sqO, subO, bind]; positivity
    | some y =>
      simp [sqO, subO, bind]
      nlinarith [sq_nonneg (x + y)]

theorem sqO_nonneg (a : Option ℝ) : 0 ≤ (sqO a).getD 0 := by
  cases a <;> simp [sqO]; positivity

/-- Numerator of `values`. -/
noncomputable def scfNum (a b : Arr3 (Option ℝ)) (i j : ℕ) : ℝ :=
  ∑ v ∈ range a.n, (sqO (subO (a.get v i j) (b.get v i j))).getD 0
/-- Denominator of `values`. -/
noncomputable def scfDen (a b : Arr3 (Option ℝ)) (i j : ℕ) : ℝ :=
  ∑ v ∈ range a.n, (sqO (a.get v i j)).getD 0 + ∑ v ∈ range b.n, (sqO (b.get v i j)).getD 0

theorem scfValues_eq {a b : Arr3 (Option ℝ)} (h : a.n = b.n ∧ a.m = b.m ∧ a.p = b.p) :
    scfValues a b = .ok ⟨a.m, a.p, fun i j =>
      if scfDen a b i j = 0 then none else some (scfNum a b i j / scfDen a b i j)⟩ := by
  unfold scfValues Arr3.zip
  rw [if_pos h]
  rfl

theorem scfNum_nonneg (a b : Arr3 (Option ℝ)) (i j : ℕ) : 0 ≤ scfNum a b i j :=
  sum_nonneg (fun _ _ => sqO_nonneg _)

theorem scfDen_nonneg (a b : Arr3 (Option ℝ)) (i j : ℕ) : 0 ≤ scfDen a b i j :=
  add_nonneg (sum_nonneg (fun _ _ => sqO_nonneg _)) (sum_nonneg (fun _ _ => sqO_nonneg _))

theorem scfNum_le {a b : Arr3 (Option ℝ)} (h : a.n = b.n) (i j : ℕ) :
    scfNum a b i j ≤ 2 * scfDen a b i j := by
  unfold scfNum scfDen
  rw [← h, ← sum_add_distrib, mul_sum]
  exact sum_le_sum (fun v _ => sqDiff_term_le _ _)

/-- Values between 0 and 2 reduce to a number between `1 - √2` and 1. -/
theorem scfReduce_bounds {w : Arr2 (Option ℝ)}
    (h : ∀ i j x, w.get i j = some x → 0 ≤ x ∧ x ≤ 2) {r : ℝ} (hr : scfReduce w = some r) :
    1 - Real.sqrt 2 ≤ r ∧ r ≤ 1 := by
  unfold scfReduce at hr
  split_ifs at hr with h0
  have hr' := Option.some.inj hr
  have hpos : (0 : ℝ) < w.nFinite := by exact_mod_cast Nat.pos_of_ne_zero h0
  have hle : w.nansum ≤ 2 * w.nFinite := by
    unfold Arr2.nansum Arr2.nFinite
    push_cast
    rw [mul_sum]
    apply sum_le_sum; intro i _
    rw [mul_sum]
    apply sum_le_sum; intro j _
    cases hw : w.get i j with
    | none => simp
    | some x => simpa using (h i j x hw).2
  constructor
  · rw [← hr']
    have : Real.sqrt (w.nansum / w.nFinite) ≤ Real.sqrt 2 := by
      apply Real.sqrt_le_sqrt
      rw [div_le_iff₀ hpos]; exact hle
    linarith
  · rw [← hr']
    have := Real.sqrt_nonneg (w.nansum / w.nFinite)
    linarith

theorem scfValues_bounds {a b : Arr3 (Option ℝ)} (h : a.n = b.n ∧ a.m = b.m ∧ a.p = b.p)
    {w : Arr2 (Option ℝ)} (hw : scfValues a b = .ok w) :
    ∀ i j x, w.get i j = some x → 0 ≤ x ∧ x ≤ 2 := by
  rw [scfValues_eq h] at hw
  cases hw
  intro i j x hx
  simp only at hx
  split_ifs at hx with h0
  have := Option.some.inj hx
  have hp : 0 < scfDen a b i j := lt_of_le_of_ne (scfDen_nonneg a b i j) (Ne.symm h0)
  rw [← this]
  exact ⟨div_nonneg (scfNum_nonneg _ _ _ _) hp.le,
    by rw [div_le_iff₀ hp]; exact scfNum_le h.1 i j⟩

/-! ### Shapes -/

theorem scfShiftX_ok (data : Arr3 (Option ℝ)) (x : ℝ) : ∃ t, scfShiftX data x = .ok t ∧
    t.n = data.n ∧ t.m = data.m ∧ t.p = data.p := by
  unfold scfShiftX
  split_ifs
  · exact ⟨_, rfl, rfl, rfl, rfl⟩
  · exact ⟨_, rfl, rfl, rfl, rfl⟩
  · exact ⟨_, rfl, rfl, rfl, rfl⟩

theorem scfShiftY_ok (data : Arr3 (Option ℝ)) (x : ℝ) : ∃ t, scfShiftY data x = .ok t ∧
    t.n = data.n ∧ t.m = data.m ∧ t.p = data.p := by
  unfold scfShiftY
  split_ifs
  · exact ⟨_, rfl, rfl, rfl, rfl⟩
  · exact ⟨_, rfl, rfl, rfl, rfl⟩
  · exact ⟨_, rfl, rfl, rfl, rfl⟩

/-- The two slices of the cut boundary, for a lag not larger than the axis. -/
theorem cutSlices_resolve {n : ℕ} {s : ℤ} (h : |s| ≤ n) :
    (scfCutSlices n s).1.resolve n = ⟨max s 0, 1, ((n : ℤ) - |s|).toNat⟩ ∧
    (scfCutSlices n s).2.resolve n = ⟨max (-s) 0, 1, ((n : ℤ) - |s|).toNat⟩ := by
  rcases lt_or_ge s 0 with hs | hs
  · rw [abs_of_neg hs] at h ⊢
    unfold scfCutSlices
    rw [if_pos hs, max_eq_right hs.le, max_eq_left (by omega)]
    refine ⟨?_, ?_⟩
    · rw [resolve_to (by omega) (by omega), sub_neg_eq_add]
    · rw [resolve_from (by omega) (by omega)]
  · rw [abs_of_nonneg hs] at h ⊢
    unfold scfCutSlices
    rw [if_neg (by omega), max_eq_left hs, max_eq_right (by omega)]
    refine ⟨?_, ?_⟩
    · rw [resolve_from (by omega) (by omega)]
    · rw [resolve_to (by omega) (by omega)]

/-- The lag fits on the map (needed for `cut` only). -/
def CutFits (boundary : String) (data : Arr3 (Option ℝ)) (x : ℝ) : Prop :=
  boundary = "cut" → |⌈x⌉| ≤ data.m ∧ |⌈x⌉| ≤ data.p

theorem scfParts_shape {boundary : String} {data tmp : Arr3 (Option ℝ)} {x y : ℝ}
    (ht : tmp.n = data.n ∧ tmp.m = data.m ∧ tmp.p = data.p)
    (hx : CutFits boundary data x) (hy : CutFits boundary data y) :
    let p := scfParts boundary data tmp x y
    p.1.n = p.2.n ∧ p.1.m = p.2.m ∧ p.1.p = p.2.p := by
  unfold scfParts
  split_ifs with hb
  · obtain ⟨h1, h2⟩ := cutSlices_resolve (hx hb).1
    obtain ⟨h3, h4⟩ := cutSlices_resolve (hy hb).2
    refine ⟨ht.1.symm, ?_, ?_⟩
    · show ((scfCutSlices tmp.m ⌈x⌉).1.resolve data.m).len = ((scfCutSlices tmp.m ⌈x⌉).2.resolve tmp.m).len
      rw [ht.2.1, h1, h2]
    · show ((scfCutSlices tmp.p ⌈y⌉).1.resolve data.p).len = ((scfCutSlices tmp.p ⌈y⌉).2.resolve tmp.p).len
      rw [ht.2.2, h3, h4]
  · exact ⟨ht.1.symm, ht.2.1.symm, ht.2.2.symm⟩

theorem scfValue_bounds {boundary : String} {data : Arr3 (Option ℝ)} {x y : ℝ}
    (hx : CutFits boundary data x) (hy : CutFits boundary data y) :
    ∃ v, scfValue boundary data x y = .ok v ∧ ∀ r, v = some r → 1 - Real.sqrt 2 ≤ r ∧ r ≤ 1 := by
  obtain ⟨t, ht, tn⟩ := scfShiftX_ok data x
  obtain ⟨u, hu, un⟩ := scfShiftY_ok t y
  have hs := scfParts_shape (boundary := boundary) (data := data) (tmp := u) (x := x) (y := y)
    ⟨un.1.trans tn.1, un.2.1.trans tn.2.1, un.2.2.trans tn.2.2⟩ hx hy
  obtain ⟨w, hv⟩ : ∃ w, scfValues (scfParts boundary data u x y).1 (scfParts boundary data u x y).2
      = .ok w := ⟨_, scfValues_eq hs⟩
  refine ⟨scfReduce w, ?_, ?_⟩
  · unfold scfValue
    simp only [ht, hu, hv, bind, Except.bind, pure, Except.pure]
  · intro r hr
    exact scfReduce_bounds (scfValues_bounds hs hv) hr

/-! ### The loop -/

/-- The surface is filled with the values of the entries. -/
theorem scfSurface_eq {boundary : String} (hb : boundary = "continuous" ∨ boundary = "cut")
    {data : Arr3 (Option ℝ)} {lags : Arr1 ℝ} {val : ℕ → ℕ → Option ℝ}
    (h : ∀ i < lags.n, ∀ j < lags.n,
      scfValue boundary data (lags.get i) (lags.get j) = .ok (val i j) ∧
        ∀ r, val i j = some r → r ≤ 1) :
    ∃ s, scfSurface boundary data lags = .ok s ∧ s.n = lags.n ∧ s.m = lags.n ∧
      ∀ j < lags.n, ∀ i < lags.n, s.get j i = val i j := by
  unfold scfSurface
  rw [if_pos hb]
  obtain ⟨s, hs, hn, hm, hg⟩ := foldlM_fill (fun n => val (n / lags.n) (n % lags.n))
    (fun n => n % lags.n) (fun n => n / lags.n) (scfStep boundary data lags) (lags.n * lags.n)
    (by
      intro s n hn
      have hpos : 0 < lags.n := by
        rcases Nat.eq_zero_or_pos lags.n with h0 | h0
        · rw [h0] at hn; simp at hn
        · exact h0
      obtain ⟨h1, h2⟩ := h (n / lags.n) (Nat.div_lt_of_lt_mul hn) (n % lags.n) (Nat.mod_lt _ hpos)
      unfold scfStep
      simp only [h1, bind, Except.bind]
      rw [if_neg]
      rintro ⟨r, hr, hlt⟩
      exact absurd (h2 r hr) (not_le.2 hlt))
    (fun n _ k _ h1 h2 => unravel_inj h2 h1)
    ⟨lags.n, lags.n, fun _ _ => some 0⟩
  refine ⟨s, hs, hn, hm, ?_⟩
  intro j hj i hi
  have := hg (i * lags.n + j) (ravel_lt hi hj)
  simp only [unravel_div hj, unravel_mod hj] at this
  exact this

/-! ### The entry as a function of the pairs that are compared -/

theorem spec_sqDiff (data : Arr3 (Option ℝ)) (p q : Spec.Pix) : Spec.sqDiff data p q =
    ∑ v ∈ range data.n, (sqO (subO (data.get v p.1 p.2) (data.get v q.1 q.2))).getD 0 := by
  unfold Spec.sqDiff
  apply sum_congr rfl; intro v _
  cases data.get v p.1 p.2 <;> cases data.get v q.1 q.2 <;> simp [sqO, subO, bind]

theorem spec_power (data : Arr3 (Option ℝ)) (p : Spec.Pix) : Spec.power data p =
    ∑ v ∈ range data.n, (sqO (data.get v p.1 p.2)).getD 0 := by
  unfold Spec.power
  apply sum_congr rfl; intro v _
  cases data.get v p.1 p.2 <;> simp [sqO]

open Classical in
/-- The reduction of the compared parts is the SCF of the set of compared pixel pairs. -/
theorem scfReduce_spec {data a b : Arr3 (Option ℝ)} (f g : ℕ → ℕ → Spec.Pix)
    (hs : a.n = b.n ∧ a.m = b.m ∧ a.p = b.p) (hn : a.n = data.n)
    (ha : ∀ v < a.n, ∀ i < a.m, ∀ j < a.p, a.get v i j = data.get v (f i j).1 (f i j).2)
    (hb : ∀ v < a.n, ∀ i < a.m, ∀ j < a.p, b.get v i j = data.get v (g i j).1 (g i j).2)
    (hinj : ∀ i < a.m, ∀ j < a.p, ∀ i' < a.m, ∀ j' < a.p, f i j = f i' j' → i = i' ∧ j = j')
    {P : Finset (Spec.Pix × Spec.Pix)}
    (hP : P = (range a.m ×ˢ range a.p).image (fun ij => (f ij.1 ij.2, g ij.1 ij.2))) :
    ∃ w, scfValues a b = .ok w ∧ scfReduce w = Spec.scf data P := by
  refine ⟨_, scfValues_eq hs, ?_⟩
  have hden : ∀ i < a.m, ∀ j < a.p,
      scfDen a b i j = Spec.power data (f i j) + Spec.power data (g i j) := by
    intro i hi j hj
    unfold scfDen
    rw [spec_power, spec_power, ← hs.1, hn]
    congr 1
    · apply sum_congr rfl; intro v hv
      rw [ha v (by rw [hn]; exact mem_range.1 hv) i hi j hj]
    · apply sum_congr rfl; intro v hv
      rw [hb v (by rw [hn]; exact mem_range.1 hv) i hi j hj]
  have hnum : ∀ i < a.m, ∀ j < a.p, scfNum a b i j = Spec.sqDiff data (f i j) (g i j) := by
    intro i hi j hj
    unfold scfNum
    rw [spec_sqDiff, hn]
    apply sum_congr rfl; intro v hv
    rw [ha v (by rw [hn]; exact mem_range.1 hv) i hi j hj,
      hb v (by rw [hn]; exact mem_range.1 hv) i hi j hj]
  set w : Arr2 (Option ℝ) := ⟨a.m, a.p, fun i j =>
      if scfDen a b i j = 0 then none else some (scfNum a b i j / scfDen a b i j)⟩ with hw
  set F : ℕ × ℕ → Spec.Pix × Spec.Pix := fun ij => (f ij.1 ij.2, g ij.1 ij.2) with hF
  set Q : Spec.Pix × Spec.Pix → Prop := fun pq => Spec.power data pq.1 + Spec.power data pq.2 ≠ 0
    with hQ
  have hFi : Set.InjOn F (range a.m ×ˢ range a.p : Finset (ℕ × ℕ)) := by
    intro x hx y hy hxy
    simp only [coe_product, Set.mem_prod, mem_coe, mem_range] at hx hy
    have := hinj x.1 hx.1 x.2 hx.2 y.1 hy.1 y.2 hy.2 (congrArg Prod.fst hxy)
    exact Prod.ext this.1 this.2
  have hgood : P.filter Q = ((range a.m ×ˢ range a.p).filter (fun ij => Q (F ij))).image F := by
    rw [hP, filter_image]
  have hFi' : Set.InjOn F ((range a.m ×ˢ range a.p).filter (fun ij => Q (F ij)) : Finset (ℕ × ℕ)) :=
    hFi.mono (by intro x hx; exact (mem_filter.1 hx).1)
  have hcard : (P.filter Q).card = w.nFinite := by
    rw [hgood, card_image_of_injOn hFi', card_filter, sum_product]
    unfold Arr2.nFinite
    apply sum_congr rfl; intro i hi
    apply sum_congr rfl; intro j hj
    have := hden i (mem_range.1 hi) j (mem_range.1 hj)
    simp only [hw, hF, hQ]
    by_cases h0 : scfDen a b i j = 0
    · rw [if_neg (by rw [← this]; simpa using h0)]; simp [h0]
    · rw [if_pos (by rw [← this]; exact h0)]; simp [h0]
  have hsum : ∑ pq ∈ P.filter Q, Spec.sqDiff data pq.1 pq.2 / (Spec.power data pq.1 + Spec.power data pq.2)
      = w.nansum := by
    rw [hgood, sum_image hFi', sum_filter, sum_product]
    unfold Arr2.nansum
    apply sum_congr rfl; intro i hi
    apply sum_congr rfl; intro j hj
    have h1 := hden i (mem_range.1 hi) j (mem_range.1 hj)
    have h2 := hnum i (mem_range.1 hi) j (mem_range.1 hj)
    simp only [hw, hF, hQ]
    by_cases h0 : scfDen a b i j = 0
    · rw [if_neg (by rw [← h1]; simpa using h0)]; simp [h0]
    · rw [if_pos (by rw [← h1]; exact h0), ← h1, ← h2]; simp [h0]
  unfold scfReduce Spec.scf
  simp only
  by_cases h0 : w.nFinite = 0
  · rw [if_pos h0, if_pos (by rw [← card_eq_zero]; exact hcard.trans h0)]
  · have hc' : ¬ (P.filter Q = ∅) := by
      rw [← card_eq_zero]; rw [hcard]; exact h0
    rw [if_neg h0, if_neg hc', hcard, hsum]

/-! ### Whole-pixel lags -/

theorem pyInt_intCast (k : ℤ) : pyInt (k : ℝ) = k := by
  unfold pyInt
  split_ifs <;> simp

theorem scfShiftX_int (data : Arr3 (Option ℝ)) (k : ℤ) : ∃ t, scfShiftX data (k : ℝ) = .ok t ∧
    t.n = data.n ∧ t.m = data.m ∧ t.p = data.p ∧
    ∀ v i j, i < data.m → t.get v i j = data.get v (rollIx data.m k i) j := by
  unfold scfShiftX
  by_cases h : ((k : ℤ) : ℝ) = 0
  · have hk : k = 0 := by exact_mod_cast h
    rw [if_pos h]
    refine ⟨_, rfl, rfl, rfl, rfl, ?_⟩
    intro v i j hi
    rw [hk, rollIx_zero hi]
  · rw [if_neg h, if_pos (by simp)]
    refine ⟨data.roll1 k, ?_, rfl, rfl, rfl, fun v i j _ => rfl⟩
    unfold pixelShift ShiftArg.toInt
    rw [if_neg (by norm_num), if_pos (by norm_num)]
    simp only [pyInt_intCast]

theorem scfShiftY_int (data : Arr3 (Option ℝ)) (k : ℤ) : ∃ t, scfShiftY data (k : ℝ) = .ok t ∧
    t.n = data.n ∧ t.m = data.m ∧ t.p = data.p ∧
    ∀ v i j, j < data.p → t.get v i j = data.get v i (rollIx data.p k j) := by
  unfold scfShiftY
  by_cases h : ((k : ℤ) : ℝ) = 0
  · have hk : k = 0 := by exact_mod_cast h
    rw [if_neg (by simpa using h)]
    refine ⟨_, rfl, rfl, rfl, rfl, ?_⟩
    intro v i j hi
    rw [hk, rollIx_zero hi]
  · rw [if_pos h, if_pos (by simp)]
    refine ⟨data.roll2 k, ?_, rfl, rfl, rfl, fun v i j _ => rfl⟩
    unfold pixelShift ShiftArg.toInt
    rw [if_neg (by norm_num), if_neg (by norm_num), if_pos (by norm_num)]
    simp only [pyInt_intCast]

theorem rollIx_iff {n : ℕ} {s : ℤ} {i q : ℕ} (hq : q < n) :
    rollIx n s i = q ↔ (n : ℤ) ∣ (i : ℤ) - (q + s) := by
  have hn : 0 < n := by omega
  have hc := rollIx_cast hn s i
  constructor
  · rintro rfl
    rw [hc]
    have := Int.emod_add_mul_ediv ((i : ℤ) - s) n
    exact ⟨((i : ℤ) - s) / n, by linarith⟩
  · intro h
    have : ((rollIx n s i : ℕ) : ℤ) = q := by
      rw [hc]
      have h4 : ((i : ℤ) - s) % n = (q : ℤ) % n := Int.emod_eq_emod_iff_emod_sub_eq_zero.2
        (Int.emod_eq_zero_of_dvd (by
          have e : ((i : ℤ) - s) - q = i - (q + s) := by ring
          rw [e]; exact h))
      rw [h4, Int.emod_eq_of_lt (by omega) (by omega)]
    exact_mod_cast this

open Classical in
theorem periodicPairs_image (m p : ℕ) (k l : ℤ) : Spec.periodicPairs m p k l =
    (range m ×ˢ range p).image (fun ij : ℕ × ℕ => (((ij.1, ij.2) : Spec.Pix),
      ((rollIx m k ij.1, rollIx p l ij.2) : Spec.Pix))) := by
  ext ⟨⟨a, b⟩, ⟨c, d⟩⟩
  simp only [Spec.periodicPairs, mem_filter, mem_product, mem_range, mem_image, Prod.mk.injEq,
    Prod.exists]
  constructor
  · rintro ⟨⟨⟨ha, hb⟩, hc, hd⟩, h1, h2⟩
    exact ⟨a, b, ⟨ha, hb⟩, ⟨rfl, rfl⟩, (rollIx_iff hc).2 h1, (rollIx_iff hd).2 h2⟩
  · rintro ⟨i, j, ⟨hi, hj⟩, ⟨rfl, rfl⟩, rfl, rfl⟩
    have hc := rollIx_lt (Nat.lt_of_le_of_lt (Nat.zero_le _) hi) k i
    have hd := rollIx_lt (Nat.lt_of_le_of_lt (Nat.zero_le _) hj) l j
    exact ⟨⟨⟨hi, hj⟩, hc, hd⟩, (rollIx_iff hc).1 rfl, (rollIx_iff hd).1 rfl⟩

/-- Continuous boundary, whole-pixel lags: the entry is the SCF of the periodic pairs. -/
theorem scfValue_continuous (data : Arr3 (Option ℝ)) (k l : ℤ) :
    scfValue "continuous" data k l = .ok (Spec.scf data (Spec.periodicPairs data.m data.p k l)) := by
  obtain ⟨t, ht, tn, tm, tp, tg⟩ := scfShiftX_int data k
  obtain ⟨u, hu, un, um, up, ug⟩ := scfShiftY_int t l
  obtain ⟨w, hw, hr⟩ := scfReduce_spec (data := data) (a := data) (b := u)
    (fun i j => (i, j)) (fun i j => (rollIx data.m k i, rollIx data.p l j))
    ⟨(un.trans tn).symm, (um.trans tm).symm, (up.trans tp).symm⟩ rfl
    (fun v _ i _ j _ => rfl)
    (by
      intro v _ i hi j hj
      rw [ug v i j (by rw [tp]; exact hj), tp, tg _ _ _ hi])
    (by
      intro i _ j _ i' _ j' _ h
      exact Prod.mk.inj h)
    (periodicPairs_image data.m data.p k l)
  unfold scfValue
  simp only [ht, hu, bind, Except.bind, pure, Except.pure]
  have hp : scfParts "continuous" data u k l = (data, u) := by
    unfold scfParts; rw [if_neg (by decide)]
  rw [hp, hw]
  simp only [hr]

end TS
