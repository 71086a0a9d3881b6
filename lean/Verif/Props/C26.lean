import Verif.Props.C25

/-! C26 — which pixel pairs the `cut` boundary compares. -/

namespace TS
open Finset

namespace Spec
/-- The pairs that `boundary='cut'` really compares at lag `(k, l)`: the first member runs over the
pixels whose neighbour at the lag is inside the map, but it is paired with the pixel at *twice* the lag
on the periodic map. -/
def doubledWrappedPairs (m p : ℕ) (k l : ℤ) : Finset (Pix × Pix) :=
  ((range m ×ˢ range p) ×ˢ (range m ×ˢ range p)).filter (fun pq =>
    (0 ≤ (pq.1.1 : ℤ) - k ∧ (pq.1.1 : ℤ) - k < m) ∧ (0 ≤ (pq.1.2 : ℤ) - l ∧ (pq.1.2 : ℤ) - l < p) ∧
    (m : ℤ) ∣ (pq.1.1 : ℤ) - (pq.2.1 + 2 * k) ∧ (p : ℤ) ∣ (pq.1.2 : ℤ) - (pq.2.2 + 2 * l))
end Spec

private theorem max_sub (s : ℤ) : max s 0 - max (-s) 0 = s := by
  rcases le_total s 0 with h | h
  · rw [max_eq_right h, max_eq_left (by omega)]; ring
  · rw [max_eq_left h, max_eq_right (by omega)]; ring

/-- What is compared for a lag that fits on the map (`|k| ≤ rows`, `|l| ≤ columns`). Missing: these should be the pairs of pixels at the
lag, which they are not (`C26_no_pair_at_lag`, `C26_cut_pairs_violated`). -/
theorem C26_compared_pairs_partial (data : Arr3 (Option ℝ)) (k l : ℤ) (hk : |k| ≤ data.m)
    (hl : |l| ≤ data.p) :
    scfValue "cut" data k l = .ok (Spec.scf data (Spec.doubledWrappedPairs data.m data.p k l)) := by
  classical
  obtain ⟨t, ht, tn, tm, tp, tg⟩ := scfShiftX_int data k
  obtain ⟨u, hu, un, um, up, ug⟩ := scfShiftY_int t l
  have hp : scfParts "cut" data u k l =
      ((data.slice1 (scfCutSlices u.m ⌈(k : ℝ)⌉).1).slice2 (scfCutSlices u.p ⌈(l : ℝ)⌉).1,
       (u.slice1 (scfCutSlices u.m ⌈(k : ℝ)⌉).2).slice2 (scfCutSlices u.p ⌈(l : ℝ)⌉).2) := by
    unfold scfParts; rw [if_pos rfl]
  have hum : u.m = data.m := um.trans tm
  have hup : u.p = data.p := up.trans tp
  rw [Int.ceil_intCast, Int.ceil_intCast, hum, hup] at hp
  obtain ⟨h1, h2⟩ := cutSlices_resolve hk
  obtain ⟨h3, h4⟩ := cutSlices_resolve hl
  have h2' : (scfCutSlices data.m k).2.resolve u.m = ⟨max (-k) 0, 1, ((data.m : ℤ) - |k|).toNat⟩ := by
    rw [hum]; exact h2
  have h4' : (scfCutSlices data.p l).2.resolve u.p = ⟨max (-l) 0, 1, ((data.p : ℤ) - |l|).toNat⟩ := by
    rw [hup]; exact h4
  set A := (data.slice1 (scfCutSlices data.m k).1).slice2 (scfCutSlices data.p l).1 with hA
  set B := (u.slice1 (scfCutSlices data.m k).2).slice2 (scfCutSlices data.p l).2 with hB
  have hAm : A.m = ((data.m : ℤ) - |k|).toNat := by
    show ((scfCutSlices data.m k).1.resolve data.m).len = _
    rw [h1]
  have hAp : A.p = ((data.p : ℤ) - |l|).toNat := by
    show ((scfCutSlices data.p l).1.resolve data.p).len = _
    rw [h3]
  have hBm : B.m = ((data.m : ℤ) - |k|).toNat := by
    show ((scfCutSlices data.m k).2.resolve u.m).len = _
    rw [h2']
  have hBp : B.p = ((data.p : ℤ) - |l|).toNat := by
    show ((scfCutSlices data.p l).2.resolve u.p).len = _
    rw [h4']
  have ixk : ∀ s : ℤ, ∀ L i : ℕ, SliceIx.ix ⟨max s 0, 1, L⟩ i = (max s 0).toNat + i := by
    intro s L i
    unfold SliceIx.ix
    have := le_max_right s 0
    simp only
    omega
  have hAg : ∀ v i j, A.get v i j = data.get v ((max k 0).toNat + i) ((max l 0).toNat + j) := by
    intro v i j
    show data.get v (((scfCutSlices data.m k).1.resolve data.m).ix i)
      (((scfCutSlices data.p l).1.resolve data.p).ix j) = _
    rw [h1, h3, ixk, ixk]
  have hBg : ∀ v i j, i < B.m → j < B.p → B.get v i j =
      data.get v (rollIx data.m k ((max (-k) 0).toNat + i)) (rollIx data.p l ((max (-l) 0).toNat + j)) := by
    intro v i j hi hj
    show u.get v (((scfCutSlices data.m k).2.resolve u.m).ix i)
      (((scfCutSlices data.p l).2.resolve u.p).ix j) = _
    rw [h2', h4', ixk, ixk]
    rw [hBm] at hi
    rw [hBp] at hj
    have e1 : (max (-k) 0).toNat + i < data.m := by
      have : |k| = max k (-k) := rfl
      omega
    have e2 : (max (-l) 0).toNat + j < data.p := by
      have : |l| = max l (-l) := rfl
      omega
    rw [ug _ _ _ (by rw [tp]; exact e2), tp, tg _ _ _ e1]
  obtain ⟨w, hw, hr⟩ := scfReduce_spec (data := data) (a := A) (b := B)
    (fun i j => ((max k 0).toNat + i, (max l 0).toNat + j))
    (fun i j => (rollIx data.m k ((max (-k) 0).toNat + i), rollIx data.p l ((max (-l) 0).toNat + j)))
    ⟨(un.trans tn).symm, hAm.trans hBm.symm, hAp.trans hBp.symm⟩ rfl
    (fun v _ i _ j _ => hAg v i j)
    (fun v _ i hi j hj => hBg v i j (by rw [hBm, ← hAm]; exact hi) (by rw [hBp, ← hAp]; exact hj))
    (by
      intro i _ j _ i' _ j' _ h
      have := Prod.mk.inj h
      omega)
    (P := Spec.doubledWrappedPairs data.m data.p k l)
    (by
      rw [hAm, hAp]
      ext ⟨⟨a, b⟩, ⟨c, d⟩⟩
      simp only [Spec.doubledWrappedPairs, mem_filter, mem_product, mem_range, mem_image,
        Prod.mk.injEq, Prod.exists]
      have dv : ∀ n : ℕ, ∀ s : ℤ, ∀ x y : ℕ, y < n → |s| ≤ n →
          (rollIx n s ((max (-s) 0).toNat + x) = y ↔
            (n : ℤ) ∣ (((max s 0).toNat + x : ℕ) : ℤ) - (y + 2 * s)) := by
        intro n s x y hy hs
        rw [rollIx_iff hy]
        have e : (((max (-s) 0).toNat + x : ℕ) : ℤ) - (y + s) = (((max s 0).toNat + x : ℕ) : ℤ) - (y + 2 * s) := by
          have := max_sub s
          have := le_max_right s 0
          have := le_max_right (-s) 0
          push_cast
          omega
        rw [e]
      have absk : |k| = max k (-k) := rfl
      have absl : |l| = max l (-l) := rfl
      constructor
      · rintro ⟨⟨⟨ha, hb⟩, hc, hd⟩, hak, hbl, g1, g2⟩
        have e1 : (max k 0).toNat + (a - (max k 0).toNat) = a := by omega
        have e2 : (max l 0).toNat + (b - (max l 0).toNat) = b := by omega
        refine ⟨a - (max k 0).toNat, b - (max l 0).toNat, ⟨by omega, by omega⟩, ⟨e1, e2⟩, ?_, ?_⟩
        · rw [dv _ _ _ _ hc hk, e1]; exact g1
        · rw [dv _ _ _ _ hd hl, e2]; exact g2
      · rintro ⟨i, j, ⟨hi, hj⟩, ⟨rfl, rfl⟩, hc, hd⟩
        have hm0 : 0 < data.m := by omega
        have hp0 : 0 < data.p := by omega
        have hc' : c < data.m := by rw [← hc]; exact rollIx_lt hm0 _ _
        have hd' : d < data.p := by rw [← hd]; exact rollIx_lt hp0 _ _
        refine ⟨⟨⟨by omega, by omega⟩, hc', hd'⟩, by omega, by omega, ?_, ?_⟩
        · exact (dv _ _ _ _ hc' hk).1 hc
        · exact (dv _ _ _ _ hd' hl).1 hd)
  unfold scfValue
  simp only [ht, hu, bind, Except.bind, pure, Except.pure]
  rw [hp]
  simp only [hw, hr]

/-- At zero lag, and only guaranteed there, these are the pairs inside the map at the lag. Missing: all other lags
(`C26_no_pair_at_lag`, `C26_cut_pairs_violated`). -/
theorem C26_zero_lag_partial (data : Arr3 (Option ℝ)) :
    scfValue "cut" data 0 0 = .ok (Spec.scf data (Spec.insidePairs data.m data.p 0 0)) := by
  have h := C26_compared_pairs_partial data 0 0 (by simp) (by simp)
  have e : Spec.doubledWrappedPairs data.m data.p 0 0 = Spec.insidePairs data.m data.p 0 0 := by
    ext ⟨⟨a, b⟩, ⟨c, d⟩⟩
    simp only [Spec.doubledWrappedPairs, Spec.insidePairs, mem_filter, mem_product, mem_range]
    have key : ∀ n : ℕ, ∀ x y : ℕ, x < n → y < n →
        ((n : ℤ) ∣ (x : ℤ) - (y + 2 * 0) ↔ (x : ℤ) = y + 0) := by
      intro n x y hx hy
      rw [show (x : ℤ) - (y + 2 * 0) = x - y by ring, add_zero]
      constructor
      · intro hd
        obtain ⟨q, hq⟩ := hd
        have hq0 : q = 0 := by
          by_contra hne
          rcases lt_or_gt_of_ne hne with h' | h'
          · nlinarith
          · nlinarith
        rw [hq0, mul_zero] at hq
        omega
      · intro he
        rw [he, sub_self]; exact dvd_zero _
    constructor
    · rintro ⟨⟨⟨ha, hb⟩, hc, hd⟩, _, _, h1, h2⟩
      exact ⟨⟨⟨ha, hb⟩, hc, hd⟩, (key _ _ _ ha hc).1 h1, (key _ _ _ hb hd).1 h2⟩
    · rintro ⟨⟨⟨ha, hb⟩, hc, hd⟩, h1, h2⟩
      exact ⟨⟨⟨ha, hb⟩, hc, hd⟩, by omega, by omega, (key _ _ _ ha hc).2 h1, (key _ _ _ hb hd).2 h2⟩
  rw [e] at h
  simpa using h

/-- At every other lag shorter than the map not one of the compared pairs is separated by the lag, even counting wrapped-around pixels, let alone inside the map. -/
theorem C26_no_pair_at_lag (m p : ℕ) (k l : ℤ) (hk : |k| < m) (hl : |l| < p) (h0 : k ≠ 0 ∨ l ≠ 0) :
    Disjoint (Spec.doubledWrappedPairs m p k l) (Spec.periodicPairs m p k l) ∧ Disjoint (Spec.doubledWrappedPairs m p k l) (Spec.insidePairs m p k l) := by
  have key : ∀ x ∈ Spec.doubledWrappedPairs m p k l, x ∉ Spec.periodicPairs m p k l := by
    rintro ⟨⟨a, b⟩, ⟨c, d⟩⟩ h h'
    simp only [Spec.doubledWrappedPairs, Spec.periodicPairs, mem_filter, mem_product, mem_range] at h h'
    obtain ⟨-, -, -, g1, g2⟩ := h
    obtain ⟨-, f1, f2⟩ := h'
    have e1 : (m : ℤ) ∣ k := by have := dvd_sub f1 g1; ring_nf at this; exact this
    have e2 : (p : ℤ) ∣ l := by have := dvd_sub f2 g2; ring_nf at this; exact this
    have z1 := Int.eq_zero_of_abs_lt_dvd e1 hk
    have z2 := Int.eq_zero_of_abs_lt_dvd e2 hl
    tauto
  refine ⟨disjoint_left.2 key, disjoint_left.2 fun x hx hx' => key x hx ?_⟩
  obtain ⟨⟨a, b⟩, ⟨c, d⟩⟩ := x
  simp only [Spec.insidePairs, Spec.periodicPairs, mem_filter, mem_product, mem_range] at hx' ⊢
  refine ⟨hx'.1, ?_, ?_⟩
  · rw [hx'.2.1]; simp
  · rw [hx'.2.2]; simp

/-- On a 5×4 map at lag (1, -1) pairs are compared, so the disjointness says something. -/
example : (Spec.doubledWrappedPairs 5 4 1 (-1)).Nonempty ∧ Disjoint (Spec.doubledWrappedPairs 5 4 1 (-1)) (Spec.insidePairs 5 4 1 (-1)) :=
  ⟨by decide, (C26_no_pair_at_lag 5 4 1 (-1) (by norm_num) (by norm_num) (Or.inl (by norm_num))).2⟩

/-- One channel, a 3×1 map with values 1, 2, 4. -/
noncomputable def cutWitness : Arr3 (Option ℝ) := ⟨1, 3, 1, fun _ i _ => some (if i = 0 then 1 else if i = 1 then 2 else 4)⟩

private theorem witness_scf (P : Finset (Spec.Pix × Spec.Pix)) (p q : Spec.Pix × Spec.Pix) (hpq : p ≠ q)
    (hP : P = {p, q}) : Spec.scf cutWitness P = some (1 - Real.sqrt
      ((Spec.sqDiff cutWitness p.1 p.2 / (Spec.power cutWitness p.1 + Spec.power cutWitness p.2) +
        Spec.sqDiff cutWitness q.1 q.2 / (Spec.power cutWitness q.1 + Spec.power cutWitness q.2)) / 2)) := by
  classical
  have hpow : ∀ r : Spec.Pix, 0 < Spec.power cutWitness r := by
    intro r
    simp only [Spec.power, cutWitness, range_one, sum_singleton]
    split_ifs <;> norm_num
  have hf : P.filter (fun pq => Spec.power cutWitness pq.1 + Spec.power cutWitness pq.2 ≠ 0) = {p, q} := by
    rw [hP, filter_eq_self]
    intro x _
    exact ne_of_gt (add_pos (hpow _) (hpow _))
  unfold Spec.scf
  simp only
  rw [hf, if_neg (by simp), sum_pair hpq, card_pair hpq]
  norm_num

/-- The property fails: at lag one the code does not compute the SCF of the pairs of pixels separated by
the lag inside the map (it compares pixels two apart, one of them wrapped around the edge). -/
theorem C26_cut_pairs_violated : ∃ (data : Arr3 (Option ℝ)) (k l : ℤ), |k| ≤ data.m ∧ |l| ≤ data.p ∧
    scfValue "cut" data k l ≠ .ok (Spec.scf data (Spec.insidePairs data.m data.p k l)) := by
  refine ⟨cutWitness, 1, 0, by simp [cutWitness], by simp, ?_⟩
  rw [C26_compared_pairs_partial cutWitness 1 0 (by simp [cutWitness]) (by simp)]
  rw [witness_scf _ ((1, 0), (2, 0)) ((2, 0), (0, 0)) (by decide) (by decide),
    witness_scf _ ((1, 0), (0, 0)) ((2, 0), (1, 0)) (by decide) (by decide)]
  intro h
  have h1 := Option.some.inj (Except.ok.inj h)
  have e1 : ∀ p q : Spec.Pix, Spec.sqDiff cutWitness p q =
      ((if p.1 = 0 then 1 else if p.1 = 1 then 2 else 4) - (if q.1 = 0 then 1 else if q.1 = 1 then 2 else 4)) ^ 2 := by
    intro p q
    simp [Spec.sqDiff, cutWitness]
  have e2 : ∀ p : Spec.Pix, Spec.power cutWitness p = (if p.1 = 0 then 1 else if p.1 = 1 then 2 else 4) ^ 2 := by
    intro p
    simp [Spec.power, cutWitness]
  simp only [e1, e2] at h1
  norm_num at h1
  have := congrArg (fun t => t ^ 2) h1
  rw [div_pow, inv_pow, Real.sq_sqrt (by norm_num), Real.sq_sqrt (by norm_num),
    Real.sq_sqrt (by norm_num)] at this
  norm_num at this

end TS
