import Verif.Props.C114
import Verif.Props.C86
import Verif.Props.C08
import Verif.Props.C06
import Verif.Props.C03
import Verif.Props.C69
import Verif.Props.C80
import Verif.Props.C45

/-! C115: the orientation of an image does not matter to its one-dimensional power spectrum, and azimuthal limits turn with the image. -/

namespace TS.Spec

/-- The second image is the first one in another orientation: any number of mirrorings and exchanges of rows and columns (which gives all turns by a right
angle). -/
inductive Reoriented : Arr2 ℝ → Arr2 ℝ → Prop
  | same (a : Arr2 ℝ) : Reoriented a a
  | upsideDown {a b : Arr2 ℝ} : Reoriented a b → Reoriented a (mirror0 b)
  | leftRight {a b : Arr2 ℝ} : Reoriented a b → Reoriented a (mirror1 b)
  | swapped {a b : Arr2 ℝ} : Reoriented a b → Reoriented a (transposed b)

/-- The vector `(x, y)` points within `delta / 2` of the direction `theta0`. -/
def Points (theta0 delta x y : ℝ) : Prop := ∃ φ r, 0 < r ∧ |φ - theta0| ≤ delta / 2 ∧ x = r * Real.cos φ ∧ y = r * Real.sin φ

/-- Mode `(K, L)`, drawn in the displayed spectrum `L` pixels to the right of the zero frequency and `K` rows above it, lies along `theta0`, seen from the zero
frequency or through it. -/
def Along (theta0 delta : ℝ) (K L : ℤ) : Prop := Points theta0 delta L (-K) ∨ Points theta0 delta (-L) K

end TS.Spec

namespace TS
open Finset Spec

/-! ### Rearranged pixels -/

private theorem involMap {n m : ℕ} {σ : ℕ × ℕ → ℕ × ℕ} (h1 : ∀ i < n, ∀ j < m, (σ (i, j)).1 < n ∧ (σ (i, j)).2 < m)
    (h2 : ∀ i < n, ∀ j < m, σ (σ (i, j)) = (i, j)) : PixelMap n m n m σ := by
  have mem : ∀ p : ℕ × ℕ, p ∈ (↑(range n ×ˢ range m) : Set (ℕ × ℕ)) ↔ p.1 < n ∧ p.2 < m := by
    intro p
    simp
  refine ⟨?_, ?_, ?_⟩
  · rintro ⟨i, j⟩ hp
    rw [mem] at hp
    exact (mem _).2 (h1 i hp.1 j hp.2)
  · rintro ⟨i, j⟩ hp ⟨i', j'⟩ hq e
    rw [mem] at hp hq
    rw [← h2 i hp.1 j hp.2, e, h2 i' hq.1 j' hq.2]
  · rintro ⟨i, j⟩ hp
    rw [mem] at hp
    exact ⟨σ (i, j), (mem _).2 (h1 i hp.1 j hp.2), h2 i hp.1 j hp.2⟩

private theorem swapMap (n m : ℕ) : PixelMap m n n m fun p => (p.2, p.1) := by
  refine ⟨?_, ?_, ?_⟩
  · intro p hp
    simp only [coe_product, coe_range, Set.mem_prod, Set.mem_Iio] at hp ⊢
    omega
  · intro p hp q hq h
    simp only [Prod.mk.injEq] at h
    ext <;> omega
  · intro p hp
    simp only [coe_product, coe_range, Set.mem_prod, Set.mem_Iio] at hp
    exact ⟨(p.2, p.1), by simp only [coe_product, coe_range, Set.mem_prod, Set.mem_Iio]; omega, rfl⟩

/-- What `pspec` bins, as an array with gaps. -/
private def sampleArr (psd2 : Arr2 (Option ℝ)) (d : Arr2 ℝ) (az : Option (Arr2 Bool)) (c : ℝ → Bool) : Arr2 (Option (ℝ × ℝ)) :=
  ⟨psd2.n, psd2.m, fun i j => if selected psd2 az (i, j) && c (d.get i j) then some (d.get i j, (psd2.get i j).getD 0) else none⟩

private theorem samples_ravel (psd2 : Arr2 (Option ℝ)) (d : Arr2 ℝ) (az : Option (Arr2 Bool)) (c : ℝ → Bool) :
    (pspecSamples psd2 d az).filter (fun s => c s.1) = (sampleArr psd2 d az c).ravel.filterMap id := by
  rw [pspecSamples_eq]
  unfold Arr2.ravel pixels sampleArr
  change List.filter _ (List.map _ (List.filter _ (List.flatMap _ _))) = _
  rw [List.filter_flatMap, List.map_flatMap, List.filter_flatMap, List.filterMap_flatMap]
  apply List.flatMap_congr
  intro i _
  rw [List.filterMap_map]
  induction List.range psd2.m with
  | nil => rfl
  | cons j l ih =>
    simp only [List.map_cons, List.filter_cons, List.filterMap_cons, Function.comp, id]
    by_cases h1 : selected psd2 az (i, j) = true
    · by_cases h2 : c (d.get i j) = true
      · simp only [h1, h2, Bool.and_true, if_true, List.map_cons, List.filter_cons]
        rw [ih]
        rfl
      · simp only [h1, h2, Bool.true_and, if_true, List.map_cons, List.filter_cons, if_false, Bool.false_eq_true]
        exact ih
    · simp only [h1, Bool.false_and, if_false, Bool.false_eq_true]
      exact ih

private theorem samples_perm {p p' : Arr2 (Option ℝ)} {d d' : Arr2 ℝ} {az az' : Option (Arr2 Bool)} {c : ℝ → Bool} {σ : ℕ × ℕ → ℕ × ℕ}
    (hσ : PixelMap p'.n p'.m p.n p.m σ) (hd : ∀ i < p'.n, ∀ j < p'.m, d'.get i j = d.get (σ (i, j)).1 (σ (i, j)).2)
    (hp : ∀ i < p'.n, ∀ j < p'.m, p'.get i j = p.get (σ (i, j)).1 (σ (i, j)).2)
    (hs : ∀ i < p'.n, ∀ j < p'.m, c (d'.get i j) = true → selected p' az' (i, j) = selected p az (σ (i, j))) :
    ((pspecSamples p' d' az').filter (fun s => c s.1)).Perm ((pspecSamples p d az).filter (fun s => c s.1)) := by
  rw [samples_ravel, samples_ravel]
  apply List.Perm.filterMap
  refine ravel_perm hσ rfl rfl ?_
  intro i hi j hj
  have hi : i < p'.n := hi
  have hj : j < p'.m := hj
  simp only [sampleArr, hd i hi j hj, hp i hi j hj]
  by_cases hc : c (d.get (σ (i, j)).1 (σ (i, j)).2) = true
  · rw [hs i hi j hj (by rw [hd i hi j hj]; exact hc)]
  · simp [hc]

private theorem npMean_perm {l l' : List ℝ} (h : l.Perm l') : npMean l = npMean l' := by
  unfold npMean
  rw [h.length_eq, h.sum_eq]

private theorem sampleStd_perm {l l' : List ℝ} (h : l.Perm l') : sampleStd l = sampleStd l' := by
  unfold sampleStd
  rw [h.length_eq, h.sum_eq, (h.map _).sum_eq]

private theorem binned_perm {β : Type*} {s s' : List (ℝ × ℝ)} (edges : Arr1 ℝ) (f : List ℝ → β) (hf : ∀ l l' : List ℝ, l.Perm l' → f l = f l') (k : ℕ)
    (h : (s.filter (fun x => decide (binOf edges x.1 = some k))).Perm (s'.filter (fun x => decide (binOf edges x.1 = some k)))) :
    (binnedStatistic s edges f).get k = (binnedStatistic s' edges f).get k :=
  hf _ _ (h.map _)

/-- The profile and its standard deviations, as functions of the edges and of what is binned. -/
private theorem output_perm (tppf : ℝ → ℕ → ℝ) {p p' : Arr2 (Option ℝ)} {d d' : Arr2 ℝ} {az az' : Option (Arr2 Bool)} (edges : Arr1 ℝ) (k : ℕ)
    (h : ((pspecSamples p' d' az').filter (fun x => decide (binOf edges x.1 = some k))).Perm
      ((pspecSamples p d az).filter (fun x => decide (binOf edges x.1 = some k)))) :
    (pspecOutput p' d' az' edges true).ps1D.get k = (pspecOutput p d az edges true).ps1D.get k ∧
    (pspecOutput p' d' az' edges true).counts.get k = (pspecOutput p d az edges true).counts.get k ∧
    (pspecStd tppf none (pspecSamples p' d' az') edges).get k = (pspecStd tppf none (pspecSamples p d az) edges).get k := by
  have e1 := binned_perm edges npMean (fun _ _ => npMean_perm) k h
  have e2 := binned_perm edges List.length (fun _ _ => List.Perm.length_eq) k h
  have e3 := binned_perm edges sampleStd (fun _ _ => sampleStd_perm) k h
  refine ⟨?_, e2, ?_⟩
  · simp only [pspecOutput, if_true, e1, e2]
  · show correctStd _ _ ((binnedStatistic _ edges sampleStd).get k) = correctStd _ _ ((binnedStatistic _ edges sampleStd).get k)
    rw [e2, e3]

/-! ### Modes -/

/-- The row that holds the opposite of the frequency of row `i`. -/
private def negR (n i : ℕ) : ℕ := if n % 2 = 0 then (if i + 1 = n then i else n - 2 - i) else n - 1 - i

/-- The column that holds the opposite of the frequency of column `j`. -/
private def negC (m j : ℕ) : ℕ := if m % 2 = 0 then (if j = 0 then 0 else m - j) else m - 1 - j

private theorem negR_spec {n i : ℕ} (hi : i < n) : negR n i < n ∧ negR n (negR n i) = i ∧
    (rowFreq n (negR n i) = -rowFreq n i ∨ (rowFreq n (negR n i) = rowFreq n i ∧ 2 * rowFreq n i = -n)) := by
  unfold negR rowFreq
  refine ⟨?_, ?_, ?_⟩ <;> split_ifs <;> omega

private theorem negC_spec {m j : ℕ} (hj : j < m) : negC m j < m ∧ negC m (negC m j) = j ∧
    (colFreq m (negC m j) = -colFreq m j ∨ (colFreq m (negC m j) = colFreq m j ∧ 2 * colFreq m j = -m)) := by
  unfold negC colFreq
  refine ⟨?_, ?_, ?_⟩ <;> split_ifs <;> omega

private theorem negR_radius {n i : ℕ} (hi : i < n) (m j : ℕ) : freqRadius n m (negR n i) j = freqRadius n m i j := by
  unfold freqRadius
  rcases (negR_spec hi).2.2 with h | ⟨h, -⟩
  · simp [h, neg_div]
  · rw [h]

private theorem negC_radius {m j : ℕ} (hj : j < m) (n i : ℕ) : freqRadius n m i (negC m j) = freqRadius n m i j := by
  unfold freqRadius
  rcases (negC_spec hj).2.2 with h | ⟨h, -⟩
  · simp [h, neg_div]
  · rw [h]

/-- The two-dimensional spectrum `p'` holds what `p` holds, at modes of the same radius. -/
private def Corr (p' p : Arr2 (Option ℝ)) : Prop :=
  ((p'.n = p.n ∧ p'.m = p.m) ∨ (p'.n = p.m ∧ p'.m = p.n)) ∧ ∃ σ, PixelMap p'.n p'.m p.n p.m σ ∧ ∀ i < p'.n, ∀ j < p'.m,
    p'.get i j = p.get (σ (i, j)).1 (σ (i, j)).2 ∧ freqRadius p'.n p'.m i j = freqRadius p.n p.m (σ (i, j)).1 (σ (i, j)).2 ∧
    ((rowFreq p'.n i : ℝ) / p'.n) ^ 2 + ((colFreq p'.m j : ℝ) / p'.m) ^ 2 =
      ((rowFreq p.n (σ (i, j)).1 : ℝ) / p.n) ^ 2 + ((colFreq p.m (σ (i, j)).2 : ℝ) / p.m) ^ 2

private theorem Corr.refl (p : Arr2 (Option ℝ)) : Corr p p :=
  ⟨Or.inl ⟨rfl, rfl⟩, id, Set.bijOn_id _, fun _ _ _ _ => ⟨rfl, rfl, rfl⟩⟩

private theorem Corr.trans {p q r : Arr2 (Option ℝ)} (h : Corr p q) (h' : Corr q r) : Corr p r := by
  obtain ⟨s, σ, b, f⟩ := h
  obtain ⟨s', σ', b', f'⟩ := h'
  refine ⟨by omega, σ' ∘ σ, b'.comp b, fun i hi j hj => ?_⟩
  obtain ⟨f1, f2, f3⟩ := f i hi j hj
  obtain ⟨l1, l2⟩ := b.lt hi hj
  obtain ⟨g1, g2, g3⟩ := f' _ l1 _ l2
  exact ⟨f1.trans g1, f2.trans g2, f3.trans g3⟩

/-- Entries by mode. -/
private def ByMode (p : Arr2 (Option ℝ)) (n m : ℕ) (g : ℤ → ℤ → Option ℝ) : Prop :=
  p.n = n ∧ p.m = m ∧ ∀ i < n, ∀ j < m, p.get i j = g (rowFreq n i) (colFreq m j)

private theorem corr_rows {p p' : Arr2 (Option ℝ)} {n m : ℕ} {g : ℤ → ℤ → Option ℝ} (hp : ByMode p n m g) (hp' : ByMode p' n m fun K L => g (-K) L)
    (per : ∀ K L, g (K + n) L = g K L) : Corr p' p := by
  obtain ⟨rfl, rfl, hg⟩ := hp
  obtain ⟨e1, e2, hg'⟩ := hp'
  refine ⟨Or.inl ⟨e1, e2⟩, fun q => (negR p.n q.1, q.2), ?_, ?_⟩
  · rw [e1, e2]
    exact involMap (fun i hi j hj => ⟨(negR_spec hi).1, hj⟩) (fun i hi j hj => by simp only [(negR_spec hi).2.1])
  · intro i hi j hj
    rw [e1] at hi ⊢
    rw [e2] at hj ⊢
    refine ⟨?_, (negR_radius hi _ _).symm, ?_⟩
    · rw [hg' i hi j hj, hg _ (negR_spec hi).1 j hj]
      rcases (negR_spec hi).2.2 with h | ⟨h, h2⟩
      · rw [h]
      · have e : -rowFreq p.n i = rowFreq p.n i + p.n := by linarith
        simp only [h, e, per]
    · rcases (negR_spec hi).2.2 with h | ⟨h, -⟩
      · simp [h, neg_div]
      · rw [h]

private theorem corr_cols {p p' : Arr2 (Option ℝ)} {n m : ℕ} {g : ℤ → ℤ → Option ℝ} (hp : ByMode p n m g) (hp' : ByMode p' n m fun K L => g K (-L))
    (per : ∀ K L, g K (L + m) = g K L) : Corr p' p := by
  obtain ⟨rfl, rfl, hg⟩ := hp
  obtain ⟨e1, e2, hg'⟩ := hp'
  refine ⟨Or.inl ⟨e1, e2⟩, fun q => (q.1, negC p.m q.2), ?_, ?_⟩
  · rw [e1, e2]
    exact involMap (fun i hi j hj => ⟨hi, (negC_spec hj).1⟩) (fun i hi j hj => by simp only [(negC_spec hj).2.1])
  · intro i hi j hj
    rw [e1] at hi ⊢
    rw [e2] at hj ⊢
    refine ⟨?_, (negC_radius hj _ _).symm, ?_⟩
    · rw [hg' i hi j hj, hg i hi _ (negC_spec hj).1]
      rcases (negC_spec hj).2.2 with h | ⟨h, h2⟩
      · rw [h]
      · have e : -colFreq p.m j = colFreq p.m j + p.m := by linarith
        simp only [h, e, per]
    · rcases (negC_spec hj).2.2 with h | ⟨h, -⟩
      · simp [h, neg_div]
      · rw [h]

private theorem swap_freq {n m i j : ℕ} (hi : i < m) (hj : j < n) : rowFreq n (n - 1 - j) = colFreq n j ∧ colFreq m (m - 1 - i) = rowFreq m i := by
  unfold rowFreq colFreq
  omega

private theorem turnMap (n m : ℕ) : PixelMap m n n m fun q => (n - 1 - q.2, m - 1 - q.1) := by
  refine ⟨?_, ?_, ?_⟩
  · intro q hq
    simp only [coe_product, coe_range, Set.mem_prod, Set.mem_Iio] at hq ⊢
    omega
  · intro q hq q' hq' h
    simp only [coe_product, coe_range, Set.mem_prod, Set.mem_Iio, Prod.mk.injEq] at hq hq' h
    ext <;> omega
  · intro q hq
    simp only [coe_product, coe_range, Set.mem_prod, Set.mem_Iio] at hq
    refine ⟨(m - 1 - q.2, n - 1 - q.1), by simp only [coe_product, coe_range, Set.mem_prod, Set.mem_Iio]; omega, ?_⟩
    ext <;> simp only <;> omega

private theorem turn_radius {n m i j : ℕ} (hi : i < m) (hj : j < n) : freqRadius m n i j = freqRadius n m (n - 1 - j) (m - 1 - i) := by
  obtain ⟨f1, f2⟩ := swap_freq hi hj
  simp only [freqRadius, f1, f2, max_comm m n, and_comm (a := rowFreq m i = 0)]
  congr 2
  exact add_comm _ _

private theorem corr_swap {p p' : Arr2 (Option ℝ)} {n m : ℕ} {g : ℤ → ℤ → Option ℝ} (hp : ByMode p n m g) (hp' : ByMode p' m n fun K L => g L K) :
    Corr p' p := by
  obtain ⟨rfl, rfl, hg⟩ := hp
  obtain ⟨e1, e2, hg'⟩ := hp'
  refine ⟨Or.inr ⟨e1, e2⟩, fun q => (p.n - 1 - q.2, p.m - 1 - q.1), ?_, ?_⟩
  · rw [e1, e2]
    exact turnMap _ _
  · intro i hi j hj
    rw [e1] at hi ⊢
    rw [e2] at hj ⊢
    obtain ⟨f1, f2⟩ := swap_freq hi hj
    refine ⟨?_, turn_radius hi hj, ?_⟩
    · rw [hg' i hi j hj, hg (p.n - 1 - j) (by omega) (p.m - 1 - i) (by omega), f1, f2]
    · rw [f1, f2, add_comm]

/-! ### Power of mirrored and transposed images -/

private theorem mirror_sum {M : Type*} [AddCommMonoid M] (n : ℕ) (f : ℕ → M) : ∑ i ∈ range n, f (n - 1 - i) = ∑ i ∈ range n, f i :=
  sum_range_reflect f n

private theorem power2_mirror0 (a : Arr2 ℝ) (k l : ℤ) : power2 (mirror0 a) k l = power2 a (-k) l := by
  have h : dft2 a.n a.m (fun i j => (a.get (a.n - 1 - i) j : ℂ)) k l =
      om a.n (((a.n : ℤ) - 1) * k) * dft2 a.n a.m (fun i j => (a.get i j : ℂ)) (-k) l := by
    unfold dft2
    rw [← mirror_sum a.n (fun i => ∑ j ∈ range a.m, (a.get i j : ℂ) * (om a.n (i * -k) * om a.m (j * l))), mul_sum]
    apply sum_congr rfl
    intro i hi
    rw [mul_sum]
    apply sum_congr rfl
    intro j _
    have : om a.n (i * k) = om a.n (((a.n : ℤ) - 1) * k) * om a.n (((a.n - 1 - i : ℕ) : ℤ) * -k) := by
      rw [← om_add]
      congr 1
      have := mem_range.1 hi
      rw [show ((a.n - 1 - i : ℕ) : ℤ) = (a.n : ℤ) - 1 - i by omega]
      ring
    rw [this]
    ring
  unfold power2
  show ‖dft2 a.n a.m (fun i j => (a.get (a.n - 1 - i) j : ℂ)) k l‖ ^ 2 = _
  rw [h, norm_mul, norm_om, one_mul]

private theorem power2_transposed (a : Arr2 ℝ) (k l : ℤ) : power2 (transposed a) k l = power2 a l k := by
  unfold power2
  congr 2
  unfold dft2
  rw [sum_comm]
  apply sum_congr rfl
  intro i _
  apply sum_congr rfl
  intro j _
  simp only [transposed]
  ring

private theorem mirror1_eq (a : Arr2 ℝ) : mirror1 a = transposed (mirror0 (transposed a)) := rfl

private theorem power2_mirror1 (a : Arr2 ℝ) (k l : ℤ) : power2 (mirror1 a) k l = power2 a k (-l) := by
  rw [mirror1_eq, power2_transposed, power2_mirror0, power2_transposed]

private theorem byMode_power {ps img : Arr2 ℝ} (hn : 0 < img.n) (h : IsCentredPower ps img) :
    ByMode ((ps2DProperty ps).map some) img.n img.m fun K L => some (power2 img K L) := by
  have hq := C02_ps2D_property ps 0 0 (by rw [h.1]; exact hn)
  refine ⟨hq.1.trans h.1, hq.2.1.trans h.2.1, fun i hi j hj => ?_⟩
  show some ((ps2DProperty ps).get i j) = _
  rw [(C02_ps2D_property ps i j (by rw [h.1]; exact hi)).2.2, h.1, h.2.2 _ (by omega) _ hj]
  congr 2
  unfold rowFreq
  omega

private theorem dists_swap (n m : ℕ) : npMax (pspecDists m n).ravel = npMax (pspecDists n m).ravel := by
  apply npMax_perm
  refine ravel_perm (swapMap n m) rfl rfl ?_
  intro i _ j _
  simp only [pspecDists, hypotArr, makeRadialArrays, Arr2.map]
  rw [add_comm]

private theorem arr1_ext {α : Type*} {a b : Arr1 α} (hn : a.n = b.n) (h : ∀ k, a.get k = b.get k) : a = b := by
  obtain ⟨n, f⟩ := a
  obtain ⟨n', g⟩ := b
  simp only at hn h
  subst hn
  rw [funext h]

private theorem corr_profile (tppf : ℝ → ℕ → ℝ) {p p' : Arr2 (Option ℝ)} (h : Corr p' p) (hn : 0 < p.n) (hm : 0 < p.m) (h2 : 2 ≤ max p.n p.m) (a : PspecArgs)
    (hf : a.returnFreqs = true) (ht : a.theta0 = none) : pspecWithStd tppf none p' a = pspecWithStd tppf none p a := by
  obtain ⟨nbins, rstd, binsize, logsp, maxB, minB, rf, th, dt⟩ := a
  simp only at hf ht
  subst hf ht
  obtain ⟨hs, σ, hσ, hv⟩ := h
  obtain ⟨d, hd, -, -, hdg⟩ := freqDist_spec hn hm h2
  obtain ⟨d', hd', -, -, hdg'⟩ := freqDist_spec (n := p'.n) (m := p'.m) (by omega) (by omega) (by omega)
  have hdd : ∀ i < p'.n, ∀ j < p'.m, d'.get i j = d.get (σ (i, j)).1 (σ (i, j)).2 := by
    intro i hi j hj
    obtain ⟨l1, l2⟩ := hσ.lt hi hj
    rw [hdg' i hi j hj, hdg _ l1 _ l2, (hv i hi j hj).2.1]
  have hmax : npMax (pspecDists p'.n p'.m).ravel = npMax (pspecDists p.n p.m).ravel := by
    rcases hs with ⟨e1, e2⟩ | ⟨e1, e2⟩
    · rw [e1, e2]
    · rw [e1, e2, dists_swap]
  have hnb : pspecNbins nbins (pspecDists p'.n p'.m) binsize = pspecNbins nbins (pspecDists p.n p.m) binsize := by
    unfold pspecNbins
    rw [hmax]
  have hmin : pspecMinBin minB true p'.n p'.m = pspecMinBin minB true p.n p.m := by
    unfold pspecMinBin
    rcases hs with ⟨e1, e2⟩ | ⟨e1, e2⟩
    · rw [e1, e2]
    · rw [e1, e2, min_comm]
  have hout : ∀ edges, pspecOutput p' d' none edges true = pspecOutput p d none edges true ∧
      pspecStd tppf none (pspecSamples p' d' none) edges = pspecStd tppf none (pspecSamples p d none) edges := by
    intro edges
    have key := fun k => output_perm tppf (p := p) (p' := p') (d := d) (d' := d') (az := none) (az' := none) edges k
      (samples_perm (c := fun x => decide (binOf edges x = some k)) hσ hdd (fun i hi j hj => (hv i hi j hj).1)
        (fun i hi j hj _ => by simp only [selected, (hv i hi j hj).1]))
    constructor
    · have e1 : (pspecOutput p' d' none edges true).ps1D = (pspecOutput p d none edges true).ps1D := arr1_ext rfl fun k => (key k).1
      have e2 : (pspecOutput p' d' none edges true).counts = (pspecOutput p d none edges true).counts := arr1_ext rfl fun k => (key k).2.1
      have f : ∀ o o' : PspecOut, o.binCents = o'.binCents → o.ps1D = o'.ps1D → o.counts = o'.counts → o.azim = o'.azim → o.edges = o'.edges → o = o' := by
        rintro ⟨⟩ ⟨⟩ h1 h2 h3 h4 h5
        simp only at h1 h2 h3 h4 h5
        subst h1 h2 h3 h4 h5
        rfl
      exact f _ _ rfl e1 e2 rfl rfl
    · exact arr1_ext rfl fun k => (key k).2.2
  have hmb : pspecMaxBin maxB true (pspecDists p'.n p'.m) = pspecMaxBin maxB true (pspecDists p.n p.m) := by
    unfold pspecMaxBin
    cases maxB <;> rfl
  have haz : ∀ n m, pspecAzim n m none dt = .ok none := fun _ _ => rfl
  unfold pspecWithStd
  simp only [hnb, hmin, hmb, haz, if_true, hd, hd', Option.any_none, Bool.false_and, Bool.false_eq_true, if_false, bind, Except.bind, (hout _).1, (hout _).2]

private theorem psd_of_window {img ps : Arr2 ℝ} {k : ApodArgs} (h : computePspec img (some k) = .ok ps) :
    ∃ w d, apodizingKernel k.kernelType k.alpha k.beta [img.n, img.m] = .ok w ∧ mul2 img w = .ok d ∧ computePspec d none = .ok ps := by
  unfold computePspec at h
  cases hw : apodizingKernel k.kernelType k.alpha k.beta [img.n, img.m] with
  | error e => simp only [hw, bind, Except.bind] at h; cases h
  | ok w =>
    cases hd : mul2 img w with
    | error e => simp only [hw, hd, bind, Except.bind] at h; cases h
    | ok d =>
      refine ⟨w, d, rfl, hd, ?_⟩
      simp only [hw, hd, bind, Except.bind] at h
      unfold computePspec
      simp only [bind, Except.bind]
      exact h

private theorem window_of_psd {img ps w d : Arr2 ℝ} {k : ApodArgs} (hw : apodizingKernel k.kernelType k.alpha k.beta [img.n, img.m] = .ok w)
    (hd : mul2 img w = .ok d) (h : computePspec d none = .ok ps) : computePspec img (some k) = .ok ps := by
  unfold computePspec at h ⊢
  simp only [bind, Except.bind] at h
  simp only [hw, hd, bind, Except.bind]
  exact h

private theorem mul2_ok {a w d : Arr2 ℝ} (h : mul2 a w = .ok d) : w.n = a.n ∧ w.m = a.m ∧ d = ⟨a.n, a.m, fun i j => a.get i j * w.get i j⟩ := by
  unfold mul2 at h
  split at h
  next hc => exact ⟨hc.1.symm, hc.2.symm, (Except.ok.inj h).symm⟩
  next => cases h

private theorem window_taper {name : String} {al be : ℝ} {n m : ℕ} {w : Arr2 ℝ} (h : apodizingKernel name al be [n, m] = .ok w) : IsTaper w n m := by
  by_cases hc : name ∈ ["splitcosinebell", "hanning", "tukey", "cosinebell"]
  · obtain ⟨⟨w', h1, h2⟩, -⟩ := (C08_apodizing_kernel name al be 0 n m).1 hc
    rw [h] at h1
    cases h1
    exact h2
  · rw [(C08_apodizing_kernel name al be 0 n m).2 hc] at h
    cases h

private theorem bell_swap (al be : ℝ) (n m : ℕ) : ∃ w w', splitCosineBell al be [n, m] = .ok w ∧ splitCosineBell al be [m, n] = .ok w' ∧ w' = transposed w := by
  refine ⟨_, _, rfl, rfl, ?_⟩
  have hr : ∀ i j, radialDistance m n i j = radialDistance n m j i := by
    intro i j
    simp only [radialDistance]
    rw [add_comm]
  have e1 : rTaper al m n = rTaper al n m := by unfold rTaper halfExtent; rw [min_comm]
  have e2 : rInner be m n = rInner be n m := by unfold rInner halfExtent; rw [min_comm]
  unfold transposed
  simp only [hr, e1, e2]

private theorem window_swap {name : String} {al be : ℝ} {n m : ℕ} {w : Arr2 ℝ} (h : apodizingKernel name al be [n, m] = .ok w) :
    apodizingKernel name al be [m, n] = .ok (transposed w) := by
  have key : ∀ al be, splitCosineBell al be [n, m] = .ok w → splitCosineBell al be [m, n] = .ok (transposed w) := by
    intro al be h
    obtain ⟨v, v', h1, h2, h3⟩ := bell_swap al be n m
    rw [h] at h1
    cases h1
    rw [h2, h3]
  unfold apodizingKernel hanningWindow tukeyWindow cosineBellWindow at h ⊢
  simp only [List.length_cons, List.length_nil, gt_iff_lt, Nat.lt_irrefl, if_false, zero_add, Nat.reduceAdd] at h ⊢
  split_ifs at h ⊢
  all_goals first | exact key _ _ h | cases h

/-- One move. -/
private inductive Move | rows | cols | swap

private def Move.app : Move → Arr2 ℝ → Arr2 ℝ
  | .rows => mirror0
  | .cols => mirror1
  | .swap => transposed

private def Move.ByMode (mv : Move) (p' : Arr2 (Option ℝ)) (n m : ℕ) (g : ℤ → ℤ → Option ℝ) : Prop :=
  match mv with
  | .rows => TS.ByMode p' n m fun K L => g (-K) L
  | .cols => TS.ByMode p' n m fun K L => g K (-L)
  | .swap => TS.ByMode p' m n fun K L => g L K

/-- The modes of the spectra of an image and of its mirror image, or of the image on its side. -/
private def MovePair (mv : Move) (b : Arr2 ℝ) (p' p : Arr2 (Option ℝ)) : Prop :=
  ∃ g : ℤ → ℤ → Option ℝ, ByMode p b.n b.m g ∧ (∀ K L, g (K + b.n) L = g K L) ∧ (∀ K L, g K (L + b.m) = g K L) ∧ mv.ByMode p' b.n b.m g

private theorem MovePair.corr {mv : Move} {b : Arr2 ℝ} {p' p : Arr2 (Option ℝ)} (h : MovePair mv b p' p) : Corr p' p := by
  obtain ⟨g, h1, h2, h3, h4⟩ := h
  cases mv
  · exact corr_rows h1 h4 h2
  · exact corr_cols h1 h4 h3
  · exact corr_swap h1 h4

private theorem pair_of {mv : Move} {b d d' ps ps' : Arr2 ℝ} (hn : 0 < b.n) (hm : 0 < b.m) (e1 : d.n = b.n) (e2 : d.m = b.m) (h : IsCentredPower ps d)
    (h' : IsCentredPower ps' d') (hs : d'.Same (mv.app d)) : MovePair mv b ((ps2DProperty ps').map some) ((ps2DProperty ps).map some) := by
  have hb := byMode_power (by omega) h
  rw [e1, e2] at hb
  refine ⟨fun K L => some (power2 d K L), hb, fun K L => ?_, fun K L => ?_, ?_⟩
  · simp only [power2_congr_freq d (show (d.n : ℤ) ∣ K + b.n - K by rw [e1]; simp) (show (d.m : ℤ) ∣ L - L by simp)]
  · simp only [power2_congr_freq d (show (d.n : ℤ) ∣ K - K by simp) (show (d.m : ℤ) ∣ L + b.m - L by rw [e2]; simp)]
  cases mv
  · have hs : d'.Same (mirror0 d) := hs
    have f1 : d'.n = b.n := hs.1.trans e1
    have f2 : d'.m = b.m := hs.2.1.trans e2
    have hp := byMode_power (by omega) h'
    rw [f1, f2] at hp
    simp only [power2_congr hs, power2_mirror0] at hp
    exact hp
  · have hs : d'.Same (mirror1 d) := hs
    have f1 : d'.n = b.n := hs.1.trans e1
    have f2 : d'.m = b.m := hs.2.1.trans e2
    have hp := byMode_power (by omega) h'
    rw [f1, f2] at hp
    simp only [power2_congr hs, power2_mirror1] at hp
    exact hp
  · have hs : d'.Same (transposed d) := hs
    have f1 : d'.n = b.m := hs.1.trans e2
    have f2 : d'.m = b.n := hs.2.1.trans e1
    have hp := byMode_power (by omega) h'
    rw [f1, f2] at hp
    simp only [power2_congr hs, power2_transposed] at hp
    exact hp

/-- One move, with or without a window. -/
private theorem pair_step (mv : Move) {b ps : Arr2 ℝ} (hn : 0 < b.n) (hm : 0 < b.m) (apod : Option ApodArgs) (h : computePspec b apod = .ok ps) :
    ∃ ps', computePspec (mv.app b) apod = .ok ps' ∧ MovePair mv b ((ps2DProperty ps').map some) ((ps2DProperty ps).map some) := by
  cases apod with
  | none =>
    obtain ⟨q, hq, hc⟩ := computePspec_none b hn hm
    rw [h] at hq; cases hq
    obtain ⟨q', hq', hc'⟩ := computePspec_none (mv.app b) (by cases mv <;> assumption) (by cases mv <;> assumption)
    exact ⟨q', hq', pair_of hn hm rfl rfl hc hc' ⟨rfl, rfl, fun _ _ _ _ => rfl⟩⟩
  | some k =>
    obtain ⟨w, d, hw, hd, hp⟩ := psd_of_window h
    obtain ⟨w1, w2, rfl⟩ := mul2_ok hd
    have ht := window_taper hw
    obtain ⟨q, hq, hc⟩ := computePspec_none ⟨b.n, b.m, fun i j => b.get i j * w.get i j⟩ hn hm
    rw [hp] at hq; cases hq
    cases mv
    · obtain ⟨q', hq', hc'⟩ := computePspec_none ⟨b.n, b.m, fun i j => b.get (b.n - 1 - i) j * w.get i j⟩ hn hm
      refine ⟨q', window_of_psd (w := w) hw (by simp [mul2, Move.app, mirror0, w1, w2]) hq',
        pair_of (d := ⟨b.n, b.m, fun i j => b.get i j * w.get i j⟩) hn hm rfl rfl hc hc' ⟨rfl, rfl, fun i hi j hj => ?_⟩⟩
      simp only [Move.app, mirror0]
      rw [ht.flip0 i hi j hj]
    · obtain ⟨q', hq', hc'⟩ := computePspec_none ⟨b.n, b.m, fun i j => b.get i (b.m - 1 - j) * w.get i j⟩ hn hm
      refine ⟨q', window_of_psd (w := w) hw (by simp [mul2, Move.app, mirror1, w1, w2]) hq',
        pair_of (d := ⟨b.n, b.m, fun i j => b.get i j * w.get i j⟩) hn hm rfl rfl hc hc' ⟨rfl, rfl, fun i hi j hj => ?_⟩⟩
      simp only [Move.app, mirror1]
      rw [ht.flip1 i hi j hj]
    · obtain ⟨q', hq', hc'⟩ := computePspec_none ⟨b.m, b.n, fun i j => b.get j i * w.get j i⟩ hm hn
      exact ⟨q', window_of_psd (w := transposed w) (window_swap hw) (by simp [mul2, Move.app, transposed, w1, w2]) hq',
        pair_of (d := ⟨b.n, b.m, fun i j => b.get i j * w.get i j⟩) hn hm rfl rfl hc hc' ⟨rfl, rfl, fun i hi j hj => rfl⟩⟩

private theorem corr_step (mv : Move) {b ps : Arr2 ℝ} (hn : 0 < b.n) (hm : 0 < b.m) (apod : Option ApodArgs) (h : computePspec b apod = .ok ps) :
    ∃ ps', computePspec (mv.app b) apod = .ok ps' ∧ Corr ((ps2DProperty ps').map some) ((ps2DProperty ps).map some) :=
  let ⟨ps', h1, h2⟩ := pair_step mv hn hm apod h
  ⟨ps', h1, h2.corr⟩

private theorem reoriented_shape {img img' : Arr2 ℝ} (h : Reoriented img img') : (img'.n = img.n ∧ img'.m = img.m) ∨ (img'.n = img.m ∧ img'.m = img.n) := by
  induction h with
  | same => exact Or.inl ⟨rfl, rfl⟩
  | upsideDown _ ih => exact ih
  | leftRight _ ih => exact ih
  | swapped _ ih => simp only [transposed]; omega

private theorem reoriented_corr {img img' ps : Arr2 ℝ} (h : Reoriented img img') (hn : 0 < img.n) (hm : 0 < img.m) (apod : Option ApodArgs)
    (hps : computePspec img apod = .ok ps) :
    ∃ ps', computePspec img' apod = .ok ps' ∧ Corr ((ps2DProperty ps').map some) ((ps2DProperty ps).map some) := by
  induction h with
  | same => exact ⟨ps, hps, Corr.refl _⟩
  | upsideDown h ih =>
    obtain ⟨q, hq, hc⟩ := ih
    have := reoriented_shape h
    obtain ⟨q', hq', hc'⟩ := corr_step .rows (by omega) (by omega) apod hq
    exact ⟨q', hq', hc'.trans hc⟩
  | leftRight h ih =>
    obtain ⟨q, hq, hc⟩ := ih
    have := reoriented_shape h
    obtain ⟨q', hq', hc'⟩ := corr_step .cols (by omega) (by omega) apod hq
    exact ⟨q', hq', hc'.trans hc⟩
  | swapped h ih =>
    obtain ⟨q, hq, hc⟩ := ih
    have := reoriented_shape h
    obtain ⟨q', hq', hc'⟩ := corr_step .swap (by omega) (by omega) apod hq
    exact ⟨q', hq', hc'.trans hc⟩

private theorem pspec_shape {img ps : Arr2 ℝ} (hn : 0 < img.n) (hm : 0 < img.m) {apod : Option ApodArgs} (h : computePspec img apod = .ok ps) :
    ((ps2DProperty ps).map some).n = img.n ∧ ((ps2DProperty ps).map some).m = img.m := by
  cases apod with
  | none =>
    obtain ⟨q, hq, hc⟩ := computePspec_none img hn hm
    rw [h] at hq; cases hq
    have := byMode_power hn hc
    exact ⟨this.1, this.2.1⟩
  | some k =>
    obtain ⟨w, d, -, hd, hp⟩ := psd_of_window h
    obtain ⟨-, -, rfl⟩ := mul2_ok hd
    obtain ⟨q, hq, hc⟩ := computePspec_none ⟨img.n, img.m, fun i j => img.get i j * w.get i j⟩ hn hm
    rw [hp] at hq; cases hq
    have := byMode_power (img := ⟨img.n, img.m, fun i j => img.get i j * w.get i j⟩) hn hc
    exact ⟨this.1, this.2.1⟩

/-- **C115 (profile).** An image in any other orientation, with or without an apodizing window, has the same one-dimensional spectrum: same bins, same powers, same standard
deviations. -/
theorem C115_profile (tppf : ℝ → ℕ → ℝ) {img img' ps : Arr2 ℝ} (h : Reoriented img img') (hn : 0 < img.n) (hm : 0 < img.m) (h2 : 2 ≤ max img.n img.m)
    (apod : Option ApodArgs) (hps : computePspec img apod = .ok ps) (a : PspecArgs) (hf : a.returnFreqs = true) (ht : a.theta0 = none) :
    ∃ ps', computePspec img' apod = .ok ps' ∧
      pspecWithStd tppf none ((ps2DProperty ps').map some) a = pspecWithStd tppf none ((ps2DProperty ps).map some) a := by
  obtain ⟨ps', hps', hc⟩ := reoriented_corr h hn hm apod hps
  obtain ⟨s1, s2⟩ := pspec_shape hn hm hps
  exact ⟨ps', hps', corr_profile tppf hc (by rw [s1]; exact hn) (by rw [s2]; exact hm) (by rw [s1, s2]; exact h2) a hf ht⟩

private theorem lowCut_comm (low : Option ℝ) (n m : ℕ) : lowCutFor low m n = lowCutFor low n m := by
  unfold lowCutFor
  rw [max_comm]

/-- **C115 (binned fit).** Nor do the intercept and the slope of a weighted or unweighted fit of the bins change. -/
theorem C115_slope (lsq : List (ℝ × ℝ × ℝ) → ℝ × ℝ) (tppf : ℝ → ℕ → ℝ) {img img' : Arr2 ℝ} (h : Reoriented img img') (hn : 0 < img.n) (hm : 0 < img.m)
    (h2 : 2 ≤ max img.n img.m) (apod : Option ApodArgs) (ps : Arr2 ℝ) (hps : computePspec img apod = .ok ps) (a : PspecArgs) (hf : a.returnFreqs = true)
    (ht : a.theta0 = none) (wt : Bool) (low high : Option ℝ) :
    weightedRun lsq tppf none apod a wt low high img' = weightedRun lsq tppf none apod a wt low high img := by
  obtain ⟨ps', hps', he⟩ := C115_profile tppf h hn hm h2 apod hps a hf ht
  have hsh := reoriented_shape h
  obtain ⟨s1, s2⟩ := pspec_shape hn hm hps
  obtain ⟨t1, t2⟩ := pspec_shape (by omega) (by omega) hps'
  simp only [weightedRun, hps, hps', radialBinsStd, he, bind, Except.bind, s1, s2, t1, t2, fitPspecLine]
  rcases hsh with ⟨e1, e2⟩ | ⟨e1, e2⟩
  · rw [e1, e2]
  · rw [e1, e2, lowCut_comm]

/-! ### The unbinned fit -/

private theorem pspecFn_fst (psd2 : Arr2 (Option ℝ)) (a : PspecArgs) :
    pspecFn psd2 { a with returnStddev := true } = (pspecWithStd (fun _ _ => 0) none psd2 a).map Prod.fst := by
  obtain ⟨nbins, rstd, binsize, logsp, maxB, minB, rf, th, dt⟩ := a
  unfold pspecFn pspecWithStd
  simp only [Option.any_none, Bool.false_and, Bool.false_eq_true, if_false]
  cases pspecAzim psd2.n psd2.m th dt with
  | error e => rfl
  | ok az =>
  cases pspecNbins nbins (pspecDists psd2.n psd2.m) binsize with
  | error e => rfl
  | ok nb =>
  cases rf
  · cases pspecMaxBin maxB false (pspecDists psd2.n psd2.m) with
    | error e => rfl
    | ok mb => rfl
  · cases freqDist psd2.n psd2.m with
    | error e => rfl
    | ok fd =>
      cases pspecMaxBin maxB true (pspecDists psd2.n psd2.m) with
      | error e => rfl
      | ok mb => rfl

private noncomputable def binArr (p : Arr2 (Option ℝ)) : Arr2 PsBin :=
  ⟨p.n, p.m, fun i j => ⟨(hypotArr (makeRadialFreqArrays p.n p.m).1 (makeRadialFreqArrays p.n p.m).2).get i j, p.get i j, none⟩⟩

private theorem unbinned_perm {p p' : Arr2 (Option ℝ)} (h : Corr p' p) : (unbinnedBins p').Perm (unbinnedBins p) := by
  obtain ⟨-, σ, hσ, hv⟩ := h
  show (binArr p').ravel.Perm (binArr p).ravel
  refine ravel_perm hσ rfl rfl ?_
  intro i hi j hj
  have hi : i < p'.n := hi
  have hj : j < p'.m := hj
  obtain ⟨l1, l2⟩ := hσ.lt hi hj
  obtain ⟨v1, -, v3⟩ := hv i hi j hj
  simp only [binArr, hypotArr, freqArrays_fst hi, freqArrays_snd hj, freqArrays_fst l1, freqArrays_snd l2, v1, v3]

private theorem rss_perm {l l' : List (ℝ × ℝ × ℝ)} (h : l.Perm l') (p : ℝ × ℝ) : rss l p = rss l' p := (h.map _).sum_eq

private theorem any_perm {α : Type*} {l l' : List α} (h : l.Perm l') (f : α → Bool) : l.any f = l'.any f := by
  rw [Bool.eq_iff_iff, List.any_eq_true, List.any_eq_true]
  exact ⟨fun ⟨x, hx, e⟩ => ⟨x, h.mem_iff.1 hx, e⟩, fun ⟨x, hx, e⟩ => ⟨x, h.mem_iff.2 hx, e⟩⟩

private theorem lineFit_perm {lsq : List (ℝ × ℝ × ℝ) → ℝ × ℝ} (hl : LeastSquares lsq) {pts pts' : List FitPt} (h : pts.Perm pts')
    (hw : ∀ q ∈ pts, q.w = .fin 1) {x y : FitPt} (hx : x ∈ pts) (hy : y ∈ pts) {x1 x2 y1 y2 : ℝ} (ex : x = ⟨.fin x1, .fin x2, .fin 1⟩)
    (ey : y = ⟨.fin y1, .fin y2, .fin 1⟩) (hne : x1 ≠ y1) : lineFit lsq pts = lineFit lsq pts' := by
  have hk : (dropMissing pts).Perm (dropMissing pts') := h.filter _
  unfold lineFit
  simp only [hk.length_eq, any_perm hk]
  split_ifs
  · rfl
  · rfl
  · rfl
  · congr 2
    have hp : ((dropMissing pts).map fun p => (p.x.val, p.y.val, p.w.val)).Perm ((dropMissing pts').map fun p => (p.x.val, p.y.val, p.w.val)) := hk.map _
    have hw' : ∀ q ∈ (dropMissing pts).map fun p => (p.x.val, p.y.val, p.w.val), 0 ≤ q.2.2 := by
      intro q hq
      obtain ⟨r, hr, rfl⟩ := List.mem_map.1 hq
      rw [hw r (List.mem_filter.1 hr).1]
      exact zero_le_one
    refine lsq_unique hw' (a := (x1, x2, 1)) (b := (y1, y2, 1)) ?_ ?_ one_pos one_pos hne (hl _ hw') fun r => ?_
    · exact List.mem_map.2 ⟨x, List.mem_filter.2 ⟨hx, by rw [ex]; rfl⟩, by rw [ex]; rfl⟩
    · exact List.mem_map.2 ⟨y, List.mem_filter.2 ⟨hy, by rw [ey]; rfl⟩, by rw [ey]; rfl⟩
    · rw [rss_perm hp, rss_perm hp]
      exact hl _ (fun q hq => hw' q (hp.mem_iff.2 hq)) r

private theorem highCut_of {high : Option ℝ} {freqs : List ℝ} {lo hi : ℝ} {low : Option ℝ} {n m : ℕ}
    (h : FitRange low high n m {f | f ∈ freqs} lo hi) : highCutFor high freqs = .ok hi := by
  cases high with
  | some v => simp only [FitRange] at h; rw [h.2]; rfl
  | none =>
    simp only [FitRange] at h
    exact npMax_eq h.2.1 (fun y hy => h.2.2 hy)

/-- **C115 (unbinned fit).** The same for the fit of all modes, given two modes of different radius inside the limits with positive power (without which the line is not
determined). -/
theorem C115_unbinned {lsq : List (ℝ × ℝ × ℝ) → ℝ × ℝ} (hl : LeastSquares lsq) {img img' : Arr2 ℝ} (h : Reoriented img img') (hn : 0 < img.n) (hm : 0 < img.m)
    (h2 : 2 ≤ max img.n img.m) (apod : Option ApodArgs) (ps : Arr2 ℝ) (hps : computePspec img apod = .ok ps) (a : PspecArgs) (hf : a.returnFreqs = true)
    (ht : a.theta0 = none) (low high : Option ℝ) (lo hi : ℝ)
    (hr : FitRange low high img.n img.m {f | f ∈ (unbinnedBins ((ps2DProperty ps).map some)).map (·.freq)} lo hi) (b c : PsBin)
    (hb : b ∈ unbinnedBins ((ps2DProperty ps).map some)) (hc : c ∈ unbinnedBins ((ps2DProperty ps).map some))
    (hb1 : lo < b.freq ∧ b.freq ≤ hi) (hc1 : lo < c.freq ∧ c.freq ≤ hi) (hb0 : 0 < b.freq) (hc0 : 0 < c.freq)
    (hb2 : ∃ p, 0 < p ∧ b.power = some p) (hc2 : ∃ p, 0 < p ∧ c.power = some p) (hne : b.freq ≠ c.freq) :
    powerSpectrumRun lsq apod a true low high img' = powerSpectrumRun lsq apod a true low high img := by
  obtain ⟨ps', hps', hcr⟩ := reoriented_corr h hn hm apod hps
  obtain ⟨s1, s2⟩ := pspec_shape hn hm hps
  have hsh := reoriented_shape h
  obtain ⟨t1, t2⟩ := pspec_shape (by omega) (by omega) hps'
  have he : radialBins ((ps2DProperty ps').map some) a = radialBins ((ps2DProperty ps).map some) a := by
    unfold radialBins
    rw [pspecFn_fst, pspecFn_fst, corr_profile _ hcr (by rw [s1]; exact hn) (by rw [s2]; exact hm) (by rw [s1, s2]; exact h2) a hf ht]
  have hperm := unbinned_perm hcr
  have hhi : highCutFor high ((unbinnedBins ((ps2DProperty ps').map some)).map (·.freq)) = highCutFor high ((unbinnedBins ((ps2DProperty ps).map some)).map (·.freq)) := by
    unfold highCutFor
    cases high with
    | some _ => rfl
    | none => exact npMax_perm (hperm.map _)
  have hlow : lowCutFor low img'.n img'.m = lowCutFor low img.n img.m := by
    rcases hsh with ⟨e1, e2⟩ | ⟨e1, e2⟩
    · rw [e1, e2]
    · rw [e1, e2, lowCut_comm]
  have hloE : lowCutFor low img.n img.m = lo := by
    have := hr.1
    rw [this]
    unfold lowCutFor
    cases low with
    | none => simp only [Option.getD_none]; rw [show (0.5 : ℝ) = 1 / 2 by norm_num, one_div_mul_eq_div, one_div_div]
    | some v => rfl
  have hlog : ∀ v : ℝ, 0 < v → log10F (some v) = .fin (log10 v) := fun v hv => log10F_pos hv
  simp only [powerSpectrumRun, hps, hps', bind, Except.bind, he, if_true, fitPspecUnbinned, hhi, s1, s2, t1, t2, hlow, hloE, Bool.false_eq_true, if_false]
  cases radialBins ((ps2DProperty ps).map some) a with
  | error e => rfl
  | ok rb =>
    simp only
    rw [highCut_of hr]
    simp only
    obtain ⟨p, hp0, hp⟩ := hb2
    obtain ⟨q, hq0, hq⟩ := hc2
    have mem : ∀ z ∈ unbinnedBins ((ps2DProperty ps).map some), lo < z.freq ∧ z.freq ≤ hi →
        (⟨log10F (some z.freq), log10F z.power, psWeight false z⟩ : FitPt) ∈ psPoints false lo hi (unbinnedBins ((ps2DProperty ps).map some)) := by
      intro z hz h1
      exact List.mem_map.2 ⟨z, List.mem_filter.2 ⟨hz, by simp [clipFunc, h1.1, h1.2]⟩, rfl⟩
    refine (lineFit_perm hl (pts := psPoints false lo hi (unbinnedBins ((ps2DProperty ps).map some))) (((hperm.symm.filter _).map _)) ?_ (mem b hb hb1) (mem c hc hc1)
      (by rw [hlog _ hb0, hp, hlog _ hp0]; rfl) (by rw [hlog _ hc0, hq, hlog _ hq0]; rfl) (fun e => hne (log10_inj hb0 hc0 e))).symm
    intro r hr
    obtain ⟨z, -, rfl⟩ := List.mem_map.1 hr
    rfl

/-! ### Cubes -/

private theorem byMode_centred {ps : Arr2 ℝ} {n m : ℕ} {g : ℤ → ℤ → ℝ} (hn : 0 < n) (h1 : ps.n = n) (h2 : ps.m = m)
    (h : ∀ i < n, ∀ j < m, ps.get i j = g ((i : ℤ) - (n / 2 : ℕ)) ((j : ℤ) - (m / 2 : ℕ))) :
    ByMode ((ps2DProperty ps).map some) n m fun K L => some (g K L) := by
  have hq := C02_ps2D_property ps 0 0 (by omega)
  refine ⟨hq.1.trans h1, hq.2.1.trans h2, fun i hi j hj => ?_⟩
  show some ((ps2DProperty ps).get i j) = _
  rw [(C02_ps2D_property ps i j (by omega)).2.2, h1, h _ (by omega) _ hj]
  congr 2
  unfold rowFreq
  omega

/-- **C115 (cubes).** Mirroring every channel of a cube, or exchanging the two spatial axes, leaves the VCA profile and its standard deviations as they were. -/
theorem C115_vca (tppf : ℝ → ℕ → ℝ) {a a' : Arr3 ℝ} (hn : 0 < a.n) (hm : 0 < a.m) (hp : 0 < a.p) (h2 : 2 ≤ max a.m a.p)
    (h : a' = ⟨a.n, a.m, a.p, fun c i j => a.get c (a.m - 1 - i) j⟩ ∨ a' = ⟨a.n, a.m, a.p, fun c i j => a.get c i (a.p - 1 - j)⟩ ∨
      a' = ⟨a.n, a.p, a.m, fun c i j => a.get c j i⟩) (o : PspecArgs) (hf : o.returnFreqs = true) (ht : o.theta0 = none) :
    ∃ ps ps', vcaComputePspec a none = .ok ps ∧ vcaComputePspec a' none = .ok ps' ∧
      pspecWithStd tppf none ((ps2DProperty ps').map some) o = pspecWithStd tppf none ((ps2DProperty ps).map some) o := by
  obtain ⟨ps, e, s1, s2, g⟩ := C03_vca_channel_sum a hn hm hp
  obtain ⟨ps', e', s1', s2', g'⟩ := C03_vca_channel_sum a' (by rcases h with rfl | rfl | rfl <;> exact hn) (by rcases h with rfl | rfl | rfl <;> assumption)
    (by rcases h with rfl | rfl | rfl <;> assumption)
  refine ⟨ps, ps', e, e', ?_⟩
  have hb := byMode_centred (g := fun K L => a.n * ∑ c ∈ range a.n, power2 (channel a c) K L) hm s1 s2 g
  have hb' := byMode_centred (g := fun K L => a'.n * ∑ c ∈ range a'.n, power2 (channel a' c) K L) (by rcases h with rfl | rfl | rfl <;> assumption) s1' s2' g'
  have hc : Corr ((ps2DProperty ps').map some) ((ps2DProperty ps).map some) := by
    rcases h with rfl | rfl | rfl
    · refine corr_rows hb ?_ (fun K L => ?_)
      · simp only [← power2_mirror0]
        exact hb'
      · congr 2
        apply sum_congr rfl
        intro c _
        exact power2_congr_freq (channel a c) (show (a.m : ℤ) ∣ K + a.m - K by simp) (show (a.p : ℤ) ∣ L - L by simp)
    · refine corr_cols hb ?_ (fun K L => ?_)
      · simp only [← power2_mirror1]
        exact hb'
      · congr 2
        apply sum_congr rfl
        intro c _
        exact power2_congr_freq (channel a c) (show (a.m : ℤ) ∣ K - K by simp) (show (a.p : ℤ) ∣ L + a.p - L by simp)
    · refine corr_swap hb ?_
      have e : (fun K L : ℤ => some ((a.n : ℝ) * ∑ c ∈ range a.n, power2 (channel a c) L K)) =
          fun K L => some ((a.n : ℝ) * ∑ c ∈ range a.n, power2 (transposed (channel a c)) K L) := by
        funext K L
        simp only [power2_transposed]
      rw [e]
      exact hb'
  exact corr_profile tppf hc (by rw [hb.1]; exact hm) (by rw [hb.2.1]; exact hp) (by rw [hb.1, hb.2.1]; exact h2) o hf ht

/-! ### Centroids -/

private theorem amp_sqrt (n m : ℕ) (f : ℕ → ℕ → ℝ) (k l : ℤ) : amp n m f k l = Real.sqrt (power2 ⟨n, m, f⟩ k l) := by
  unfold amp power2
  rw [Real.sqrt_sq (norm_nonneg _)]

private theorem amp_rows (n m : ℕ) (f : ℕ → ℕ → ℝ) (k l : ℤ) : amp n m (fun i j => f (n - 1 - i) j) k l = amp n m f (-k) l := by
  rw [amp_sqrt, amp_sqrt]
  exact congrArg Real.sqrt (power2_mirror0 ⟨n, m, f⟩ k l)

private theorem amp_cols (n m : ℕ) (f : ℕ → ℕ → ℝ) (k l : ℤ) : amp n m (fun i j => f i (m - 1 - j)) k l = amp n m f k (-l) := by
  rw [amp_sqrt, amp_sqrt]
  exact congrArg Real.sqrt (power2_mirror1 ⟨n, m, f⟩ k l)

private theorem amp_swap (n m : ℕ) (f : ℕ → ℕ → ℝ) (k l : ℤ) : amp m n (fun i j => f j i) k l = amp n m f l k := by
  rw [amp_sqrt, amp_sqrt]
  exact congrArg Real.sqrt (power2_transposed ⟨n, m, f⟩ k l)

private theorem amp_period (n m : ℕ) (f : ℕ → ℕ → ℝ) (K L : ℤ) : amp n m f (K + n) L = amp n m f K L ∧ amp n m f K (L + m) = amp n m f K L := by
  simp only [amp_sqrt]
  exact ⟨congrArg Real.sqrt (power2_congr_freq ⟨n, m, f⟩ (show (n : ℤ) ∣ K + n - K by simp) (show (m : ℤ) ∣ L - L by simp)),
    congrArg Real.sqrt (power2_congr_freq ⟨n, m, f⟩ (show (n : ℤ) ∣ K - K by simp) (show (m : ℤ) ∣ L + m - L by simp))⟩

private theorem mean_rows (n m : ℕ) (f : ℕ → ℕ → ℝ) : mapMean n m (fun i j => f (n - 1 - i) j) = mapMean n m f := by
  unfold mapMean
  rw [mirror_sum n fun i => ∑ j ∈ range m, f i j]

private theorem mean_cols (n m : ℕ) (f : ℕ → ℕ → ℝ) : mapMean n m (fun i j => f i (m - 1 - j)) = mapMean n m f := by
  unfold mapMean
  simp only [fun i => mirror_sum m fun j => f i j]

private theorem mean_swap (n m : ℕ) (f : ℕ → ℕ → ℝ) : mapMean m n (fun i j => f j i) = mapMean n m f := by
  unfold mapMean
  rw [sum_comm, mul_comm (m : ℝ)]

private theorem byMode_option {ps : Arr2 (Option ℝ)} {n m : ℕ} {g : ℤ → ℤ → ℝ} (hn : 0 < n) (h : IsCentred ps n m g) :
    ByMode (ps2DProperty ps) n m fun K L => some (g K L) := by
  obtain ⟨h1, h2, hg⟩ := h
  have hq := C02_ps2D_property ps 0 0 (by omega)
  refine ⟨hq.1.trans h1, hq.2.1.trans h2, fun i hi j hj => ?_⟩
  rw [(C02_ps2D_property ps i j (by omega)).2.2, h1, hg _ (by omega) _ hj]
  congr 2
  unfold rowFreq
  omega

/-- **C115 (MVC).** Mirroring the centroid, intensity and line width maps, or exchanging rows and columns in all three, leaves the MVC profile and its standard
deviations as they were. -/
theorem C115_mvc (tppf : ℝ → ℕ → ℝ) {n m n' m' : ℕ} (hn : 0 < n) (hm : 0 < m) (h2 : 2 ≤ max n m) (V I L V' I' L' : ℕ → ℕ → ℝ)
    (h : (n' = n ∧ m' = m ∧ ∀ i j, V' i j = V (n - 1 - i) j ∧ I' i j = I (n - 1 - i) j ∧ L' i j = L (n - 1 - i) j) ∨
      (n' = n ∧ m' = m ∧ ∀ i j, V' i j = V i (m - 1 - j) ∧ I' i j = I i (m - 1 - j) ∧ L' i j = L i (m - 1 - j)) ∨
      (n' = m ∧ m' = n ∧ ∀ i j, V' i j = V j i ∧ I' i j = I j i ∧ L' i j = L j i)) (o : PspecArgs) (hf : o.returnFreqs = true) (ht : o.theta0 = none) :
    ∃ ps ps', mvcPspec ⟨fullMap n m V, fullMap n m I, fullMap n m L⟩ none = .ok ps ∧
      mvcPspec ⟨fullMap n' m' V', fullMap n' m' I', fullMap n' m' L'⟩ none = .ok ps' ∧
      pspecWithStd tppf none (ps2DProperty ps') o = pspecWithStd tppf none (ps2DProperty ps) o := by
  obtain ⟨ps, e, hc⟩ := C45_spectrum_partial n m hn hm V I L
  have hb := byMode_option hn hc
  have fin : ∀ {p : Arr2 (Option ℝ)}, Corr p (ps2DProperty ps) → pspecWithStd tppf none p o = pspecWithStd tppf none (ps2DProperty ps) o := fun h =>
    corr_profile tppf h (by rw [hb.1]; exact hn) (by rw [hb.2.1]; exact hm) (by rw [hb.1, hb.2.1]; exact h2) o hf ht
  rcases h with ⟨rfl, rfl, h⟩ | ⟨rfl, rfl, h⟩ | ⟨rfl, rfl, h⟩
  · obtain ⟨ps', e', hc'⟩ := C45_spectrum_partial n' m' hn hm V' I' L'
    refine ⟨ps, ps', e, e', fin (corr_rows hb ?_ fun K M => ?_)⟩
    · have hb' := byMode_option hn hc'
      rw [show V' = fun i j => V (n' - 1 - i) j from funext₂ fun i j => (h i j).1, show I' = fun i j => I (n' - 1 - i) j from funext₂ fun i j => (h i j).2.1,
        show L' = fun i j => L (n' - 1 - i) j from funext₂ fun i j => (h i j).2.2] at hb'
      simp only [amp_rows n' m' (fun i j => V i j * I i j), amp_rows n' m' I, mean_rows n' m' (fun i j => L i j ^ 2 + V i j ^ 2)] at hb'
      exact hb'
    · simp only [(amp_period n' m' _ K M).1]
  · obtain ⟨ps', e', hc'⟩ := C45_spectrum_partial n' m' hn hm V' I' L'
    refine ⟨ps, ps', e, e', fin (corr_cols hb ?_ fun K M => ?_)⟩
    · have hb' := byMode_option hn hc'
      rw [show V' = fun i j => V i (m' - 1 - j) from funext₂ fun i j => (h i j).1, show I' = fun i j => I i (m' - 1 - j) from funext₂ fun i j => (h i j).2.1,
        show L' = fun i j => L i (m' - 1 - j) from funext₂ fun i j => (h i j).2.2] at hb'
      simp only [amp_cols n' m' (fun i j => V i j * I i j), amp_cols n' m' I, mean_cols n' m' (fun i j => L i j ^ 2 + V i j ^ 2)] at hb'
      exact hb'
    · simp only [(amp_period n' m' _ K M).2]
  · obtain ⟨ps', e', hc'⟩ := C45_spectrum_partial n' m' hm hn V' I' L'
    refine ⟨ps, ps', e, e', fin (corr_swap hb ?_)⟩
    have hb' := byMode_option hm hc'
    rw [show V' = fun i j => V j i from funext₂ fun i j => (h i j).1, show I' = fun i j => I j i from funext₂ fun i j => (h i j).2.1,
      show L' = fun i j => L j i from funext₂ fun i j => (h i j).2.2] at hb'
    simp only [amp_swap m' n' (fun i j => V i j * I i j), amp_swap m' n' I, mean_swap m' n' (fun i j => L i j ^ 2 + V i j ^ 2)] at hb'
    exact hb'

/-- `C115_mvc` applies to maps of 3 × 2 pixels that are not the same when mirrored. -/
example : ∃ V : ℕ → ℕ → ℝ, (2 ≤ max 3 2) ∧ V 0 0 ≠ V (3 - 1 - 0) 0 ∧ V 0 0 ≠ V 0 (2 - 1 - 0) :=
  ⟨fun i j => i + 5 * j, by norm_num, by norm_num, by norm_num⟩

/-! ### Bins in pixels -/

private theorem one_bin {p : Arr2 (Option ℝ)} (h : (p.n = 2 ∧ p.m = 1) ∨ (p.n = 1 ∧ p.m = 2)) {x : ℝ} (hx : p.get 0 0 = some x) :
    ∃ out, pspecFn p { nbins := some 1, logspacing := false, maxBin := some 2, returnFreqs := false } = .ok out ∧ out.ps1D.get 0 = some x := by
  classical
  obtain ⟨out, ho, hedge, haz⟩ : ∃ out, pspecFn p { nbins := some 1, logspacing := false, maxBin := some 2, returnFreqs := false } = .ok out ∧
      out.edges = linspace 0.5 2 2 ∧ out.azim = none := ⟨_, rfl, rfl, rfl⟩
  have en : out.edges.n = 2 := by rw [hedge]; rfl
  have ed0 : out.edges.get 0 = 1 / 2 := by rw [hedge]; simp only [linspace]; norm_num
  have ed1 : out.edges.get 1 = 2 := by rw [hedge]; simp only [linspace]; norm_num
  have key := C05_bin_means p _ out (by omega) (by omega) (by omega) ho (by rw [hedge]; exact linspace_edges (by norm_num) (by norm_num)) (by omega) 0
  have hS : binPixels p out.azim out.edges false 0 = {(0, 0)} := by
    ext ⟨i, j⟩
    have hmem : (i, j) ∈ binPixels p out.azim out.edges false 0 ↔ (i, j) ∈ range p.n ×ˢ range p.m ∧ p.get i j ≠ none ∧
        (∀ a, out.azim = some a → a.get i j = true) ∧ InBin out.edges 0 (pixRadius p.n p.m i j) := by
      unfold binPixels
      exact mem_filter
    rw [hmem, mem_product, mem_range, mem_range, mem_singleton, Prod.mk.injEq, haz]
    unfold InBin pixRadius
    rw [en, ed0, zero_add, ed1]
    constructor
    · rintro ⟨⟨hi, hj⟩, -, -, -, h1, -⟩
      dsimp only at hi hj
      rcases h with ⟨h2, h3⟩ | ⟨h2, h3⟩ <;> rw [h2] at hi <;> rw [h3] at hj <;> rw [h2, h3] at h1
      · refine ⟨?_, by omega⟩
        by_contra hc
        have : i = 1 := by omega
        have : j = 0 := by omega
        subst i j
        norm_num at h1
      · refine ⟨by omega, ?_⟩
        by_contra hc
        have : j = 1 := by omega
        have : i = 0 := by omega
        subst i j
        norm_num at h1
    · rintro ⟨rfl, rfl⟩
      refine ⟨⟨by show 0 < p.n; omega, by show 0 < p.m; omega⟩, by rw [hx]; exact Option.some_ne_none _, fun a h => (nomatch h), by norm_num, ?_, Or.inl ?_⟩ <;>
      · rcases h with ⟨h2, h3⟩ | ⟨h2, h3⟩ <;> rw [h2, h3] <;> norm_num
  refine ⟨out, ho, ?_⟩
  rw [key.2, hS]
  simp [pixMean, hx]

/-- **C115 (bins in pixels, violation).** With `return_freqs=False` the orientation matters: pixel radii are measured from row `n // 2` of the public spectrum, which holds the
zero frequency for odd numbers of rows only.  Two equal pixels above each other have power 4 in the bin from 1/2 to 2 pixels, next to each other they have none. -/
theorem C115_pixels_violated : ∃ img ps ps' : Arr2 ℝ, ∃ o : PspecArgs, ∃ out out', o.returnFreqs = false ∧ o.theta0 = none ∧
    computePspec img none = .ok ps ∧ computePspec (transposed img) none = .ok ps' ∧
    pspecFn ((ps2DProperty ps).map some) o = .ok out ∧ pspecFn ((ps2DProperty ps').map some) o = .ok out' ∧
    out.ps1D.get 0 = some 4 ∧ out'.ps1D.get 0 = some 0 := by
  obtain ⟨ps, e, n1, m1, g⟩ := computePspec_none ⟨2, 1, fun _ _ => (1 : ℝ)⟩ (by norm_num) (by norm_num)
  obtain ⟨ps', e', n2, m2, g'⟩ := computePspec_none (transposed ⟨2, 1, fun _ _ => (1 : ℝ)⟩) (show 0 < 1 by norm_num) (show 0 < 2 by norm_num)
  have n1 : ps.n = 2 := n1
  have m1 : ps.m = 1 := m1
  have n2 : ps'.n = 1 := n2
  have m2 : ps'.m = 2 := m2
  have q1 := C02_ps2D_property ps 0 0 (by omega)
  have q2 := C02_ps2D_property ps' 0 0 (by omega)
  have v1 : ps.get 1 0 = 4 := by
    rw [g 1 (by norm_num) 0 (by norm_num)]
    unfold power2 dft2
    norm_num [sum_range_succ, om_zero]
  have v2 : ps'.get 0 0 = 0 := by
    rw [g' 0 (show 0 < 1 by norm_num) 0 (show 0 < 2 by norm_num)]
    rw [power2_transposed]
    have hs : (∑ j ∈ range 2, om 2 ((j : ℤ) * (-1 : ℤ))) = 0 := by
      rw [sum_om (by norm_num), if_neg (by norm_num)]
    have hd : dft2 2 1 (fun _ _ => ((1 : ℝ) : ℂ)) (-1) 0 = 0 := by
      unfold dft2
      simp only [sum_range_one, Nat.cast_zero, zero_mul, om_zero, mul_one, Complex.ofReal_one, one_mul]
      exact hs
    have hp : power2 ⟨2, 1, fun _ _ => (1 : ℝ)⟩ (-1) 0 = 0 := by
      unfold power2
      rw [hd]
      simp
    exact hp
  obtain ⟨out, f, w⟩ := one_bin (p := (ps2DProperty ps).map some) (Or.inl ⟨q1.1.trans n1, q1.2.1.trans m1⟩) (x := 4) (by
    show some ((ps2DProperty ps).get 0 0) = _
    rw [q1.2.2, n1]
    exact congrArg some v1)
  obtain ⟨out', f', w'⟩ := one_bin (p := (ps2DProperty ps').map some) (Or.inr ⟨q2.1.trans n2, q2.2.1.trans m2⟩) (x := 0) (by
    show some ((ps2DProperty ps').get 0 0) = _
    rw [q2.2.2, n2]
    exact congrArg some v2)
  exact ⟨_, ps, ps', _, out, out', rfl, rfl, e, e', f, f', w, w'⟩

/-! ### Azimuthal limits -/

private theorem ang_points {t d x y : ℝ} (h : x ≠ 0 ∨ y ≠ 0) : AngWithin t d (Complex.arg ⟨x, y⟩) ↔ Points t d x y := by
  have hz : (⟨x, y⟩ : ℂ) ≠ 0 := by
    intro e
    have e1 := congrArg Complex.re e
    have e2 := congrArg Complex.im e
    simp only [Complex.zero_re, Complex.zero_im] at e1 e2
    tauto
  constructor
  · rintro ⟨k, hk⟩
    refine ⟨Complex.arg ⟨x, y⟩ + 2 * Real.pi * k, ‖(⟨x, y⟩ : ℂ)‖, norm_pos_iff.2 hz, hk, ?_, ?_⟩
    · rw [mul_comm (2 * Real.pi), Real.cos_add_int_mul_two_pi, Complex.norm_mul_cos_arg]
    · rw [mul_comm (2 * Real.pi), Real.sin_add_int_mul_two_pi, Complex.norm_mul_sin_arg]
  · rintro ⟨φ, r, hr, hφ, rfl, rfl⟩
    have e : (⟨r * Real.cos φ, r * Real.sin φ⟩ : ℂ) = (r : ℂ) * (Real.cos φ + Real.sin φ * Complex.I) := by
      apply Complex.ext <;> simp [-Complex.ofReal_cos, -Complex.ofReal_sin]
    have := Complex.arg_mul_cos_add_sin_mul_I_coe_angle hr (φ : Real.Angle)
    rw [Real.Angle.cos_coe, Real.Angle.sin_coe, ← e] at this
    obtain ⟨k, hk⟩ := Real.Angle.angle_eq_iff_two_pi_dvd_sub.1 this
    refine ⟨-k, ?_⟩
    rwa [show Complex.arg ⟨r * Real.cos φ, r * Real.sin φ⟩ + 2 * Real.pi * ((-k : ℤ) : ℝ) = φ by push_cast; linarith]

private theorem points_flip (t d x y : ℝ) : Points (-t) d x (-y) ↔ Points t d x y := by
  have key : ∀ {t x y : ℝ}, Points t d x y → Points (-t) d x (-y) := by
    rintro t x y ⟨φ, r, hr, h1, rfl, rfl⟩
    exact ⟨-φ, r, hr, by rwa [show -φ - -t = -(φ - t) by ring, abs_neg], by rw [Real.cos_neg], by rw [Real.sin_neg]; ring⟩
  exact ⟨fun h => by simpa using key h, key⟩

private theorem points_swap (t d x y : ℝ) : Points (Real.pi / 2 - t) d y x ↔ Points t d x y := by
  have key : ∀ {t x y : ℝ}, Points t d x y → Points (Real.pi / 2 - t) d y x := by
    rintro t x y ⟨φ, r, hr, h1, rfl, rfl⟩
    exact ⟨Real.pi / 2 - φ, r, hr, by rwa [show Real.pi / 2 - φ - (Real.pi / 2 - t) = -(φ - t) by ring, abs_neg], by rw [Real.cos_pi_div_two_sub],
      by rw [Real.sin_pi_div_two_sub]⟩
  exact ⟨fun h => by simpa using key h, key⟩

private theorem along_rows (t d : ℝ) (K L : ℤ) : Along (-t) d (-K) L ↔ Along t d K L := by
  unfold Along
  rw [← points_flip t d L, ← points_flip t d (-L)]
  push_cast
  rw [neg_neg]

private theorem along_cols (t d : ℝ) (K L : ℤ) : Along (-t) d K (-L) ↔ Along t d K L := by
  unfold Along
  rw [← points_flip t d L, ← points_flip t d (-L)]
  push_cast
  rw [neg_neg, neg_neg, or_comm]

private theorem along_swap (t d : ℝ) (K L : ℤ) : Along (Real.pi / 2 - t) d L K ↔ Along t d K L := by
  unfold Along
  rw [← points_swap t d L, ← points_swap t d (-L), or_comm]

private theorem mask_angles {n m i j : ℕ} {t d : ℝ} (hi : i < n) (hj : j < m) (hd0 : 0 < d) (hd1 : d < 2 * Real.pi)
    (hcut : ∀ k : ℤ, t - d / 2 ≠ (2 * k + 1) * Real.pi) :
    (azimMask n m t d).get i j = true ↔ InMiddle n m i j ∨ AngWithin t d (pixelAngle n m i j) ∨
      AngWithin t d (pixelAngle n m (n - 1 - i) (m - 1 - j)) := by
  have hb : wrapAtPi (t - 0.5 * d) ≠ -Real.pi := by
    intro hw
    unfold wrapAtPi at hw
    apply hcut (⌊(t - 0.5 * d + Real.pi) / (2 * Real.pi)⌋ - 1)
    push_cast
    linarith
  have te : ∀ i j, (thetaArr n m).get i j = pixelAngle n m i j := by
    intro i j
    simp only [thetaArr, makeRadialArrays, axisCentre, arctan2, pixelAngle]
    rw [Int.cast_add, Int.cast_add, Int.cast_neg, Int.cast_neg, Int.cast_natCast, Int.cast_natCast, Int.cast_natCast, Int.cast_natCast]
    congr 2 <;> ring
  have hw : ∀ i j, inWedge t d ((thetaArr n m).get i j) = true ↔ AngWithin t d (pixelAngle n m i j) := by
    intro i j
    rw [te]
    exact inWedge_iff hd0 hd1 (Complex.neg_pi_lt_arg _) (Complex.arg_le_pi _) (Or.inr hb)
  rw [azimMask_get hi hj, hw, hw]
  rfl

/-- In maps with odd sizes the kept modes, away from the middle block, are those that lie along `theta_0`. -/
private theorem mask_odd {n m i j : ℕ} {t d : ℝ} (on : n % 2 = 1) (om : m % 2 = 1) (hi : i < n) (hj : j < m) (hd0 : 0 < d) (hd1 : d < 2 * Real.pi)
    (hcut : ∀ k : ℤ, t - d / 2 ≠ (2 * k + 1) * Real.pi) (hmid : ¬ InMiddle n m i j) :
    (azimMask n m t d).get i j = true ↔ Along t d (rowFreq n i) (colFreq m j) := by
  rw [mask_angles hi hj hd0 hd1 hcut, or_iff_right hmid]
  have hK : (i : ℤ) - (n / 2 : ℕ) = -rowFreq n i := by unfold rowFreq; omega
  have hK' : ((n - 1 - i : ℕ) : ℤ) - (n / 2 : ℕ) = rowFreq n i := by unfold rowFreq; omega
  have hL' : ((m - 1 - j : ℕ) : ℤ) - (m / 2 : ℕ) = -colFreq m j := by unfold colFreq; omega
  have hL : (j : ℤ) - (m / 2 : ℕ) = colFreq m j := rfl
  have hne : colFreq m j ≠ 0 ∨ rowFreq n i ≠ 0 := by
    by_contra hc
    push Not at hc
    apply hmid
    unfold InMiddle
    unfold rowFreq colFreq at hc
    omega
  have r1 : pixelAngle n m i j = Complex.arg ⟨(colFreq m j : ℝ), -(rowFreq n i : ℝ)⟩ := by
    unfold pixelAngle
    rw [← hL, show (-(rowFreq n i : ℝ)) = ((-rowFreq n i : ℤ) : ℝ) by push_cast; rfl, ← hK]
    push_cast
    rfl
  have r2 : pixelAngle n m (n - 1 - i) (m - 1 - j) = Complex.arg ⟨-(colFreq m j : ℝ), (rowFreq n i : ℝ)⟩ := by
    unfold pixelAngle
    rw [← hK', show (-(colFreq m j : ℝ)) = ((-colFreq m j : ℤ) : ℝ) by push_cast; rfl, ← hL']
    push_cast
    rfl
  have hne1 : (colFreq m j : ℝ) ≠ 0 ∨ -(rowFreq n i : ℝ) ≠ 0 := by
    rcases hne with h | h
    · exact Or.inl (by exact_mod_cast h)
    · exact Or.inr (neg_ne_zero.2 (by exact_mod_cast h))
  have hne2 : -(colFreq m j : ℝ) ≠ 0 ∨ (rowFreq n i : ℝ) ≠ 0 := by
    rcases hne with h | h
    · exact Or.inl (neg_ne_zero.2 (by exact_mod_cast h))
    · exact Or.inr (by exact_mod_cast h)
  rw [r1, r2, ang_points hne1, ang_points hne2]
  rfl

/-- The middle block lies inside the radius of mode `(1, 1)`. -/
private theorem middle_radius {n m i j : ℕ} (on : n % 2 = 1) (om : m % 2 = 1) (h : InMiddle n m i j) :
    freqRadius n m i j ≤ Real.sqrt ((1 / (n : ℝ)) ^ 2 + (1 / (m : ℝ)) ^ 2) := by
  obtain ⟨h1, h2⟩ := h
  have hn : (0 : ℝ) < n := by exact_mod_cast (show 0 < n by omega)
  have hm : (0 : ℝ) < m := by exact_mod_cast (show 0 < m by omega)
  have hK : rowFreq n i = 0 ∨ rowFreq n i = 1 := by unfold rowFreq; omega
  have hL : colFreq m j = 0 ∨ colFreq m j = -1 := by unfold colFreq; omega
  unfold freqRadius
  split_ifs with h0
  · apply Real.le_sqrt_of_sq_le
    have hM : (n : ℝ) ≤ (max n m : ℕ) := by exact_mod_cast le_max_left n m
    have : 1 / (2 * ((max n m : ℕ) : ℝ)) ≤ 1 / n := one_div_le_one_div_of_le hn (by linarith)
    have h3 : (1 / (2 * ((max n m : ℕ) : ℝ))) ^ 2 ≤ (1 / (n : ℝ)) ^ 2 := pow_le_pow_left₀ (by positivity) this 2
    nlinarith [sq_nonneg (1 / (m : ℝ))]
  · apply Real.sqrt_le_sqrt
    have a1 : ((rowFreq n i : ℝ) / n) ^ 2 ≤ (1 / (n : ℝ)) ^ 2 := by
      rcases hK with h | h <;> rw [h]
      · simp
      · simp
    have a2 : ((colFreq m j : ℝ) / m) ^ 2 ≤ (1 / (m : ℝ)) ^ 2 := by
      rcases hL with h | h <;> rw [h]
      · simp
      · simp [neg_div]
    linarith

private theorem output_edges (p : Arr2 (Option ℝ)) (d : Arr2 ℝ) (az : Option (Arr2 Bool)) (edges : Arr1 ℝ) :
    (pspecOutput p d az edges true).edges = edges ∧
      (pspecOutput p d az edges true).binCents = ⟨edges.n - 1, fun k => (edges.get (k + 1) + edges.get k) / 2⟩ := ⟨rfl, rfl⟩

private theorem wedge_unfold (tppf : ℝ → ℕ → ℝ) {p : Arr2 (Option ℝ)} {nbins : Option ℕ} (rstd : Bool) {binsize : ℝ} {maxB : Option ℝ} (minB : Option ℝ)
    (logsp : Bool) (t δ : ℝ) {d : Arr2 ℝ} (hd : freqDist p.n p.m = .ok d) {nb : ℕ} {mb : ℝ} (e1 : pspecNbins nbins (pspecDists p.n p.m) binsize = .ok nb)
    (e2 : pspecMaxBin maxB true (pspecDists p.n p.m) = .ok mb) :
    pspecWithStd tppf none p ⟨nbins, rstd, binsize, logsp, maxB, minB, true, some t, some δ⟩ =
      .ok (pspecOutput p d (some (azimMask p.n p.m t δ)) (pspecEdges logsp (pspecMinBin minB true p.n p.m) mb nb) true,
        pspecStd tppf none (pspecSamples p d (some (azimMask p.n p.m t δ))) (pspecEdges logsp (pspecMinBin minB true p.n p.m) mb nb)) := by
  unfold pspecWithStd
  simp only [pspecAzim, e1, e2, hd, if_true, Option.any_none, Bool.false_and, Bool.false_eq_true, if_false, bind, Except.bind, pure, Except.pure]

private theorem wedge_ok {tppf : ℝ → ℕ → ℝ} {p : Arr2 (Option ℝ)} {nbins : Option ℕ} {rstd : Bool} {binsize : ℝ} {maxB minB : Option ℝ} {logsp : Bool} {t δ : ℝ}
    {r : PspecOut × Arr1 (Option ℝ)} (h : pspecWithStd tppf none p ⟨nbins, rstd, binsize, logsp, maxB, minB, true, some t, some δ⟩ = .ok r) :
    ∃ nb mb, pspecNbins nbins (pspecDists p.n p.m) binsize = .ok nb ∧ pspecMaxBin maxB true (pspecDists p.n p.m) = .ok mb := by
  unfold pspecWithStd at h
  cases e1 : pspecNbins nbins (pspecDists p.n p.m) binsize with
  | error e => simp only [pspecAzim, e1, bind, Except.bind] at h; cases h
  | ok nb =>
  cases e0 : freqDist p.n p.m with
  | error e => simp only [pspecAzim, e1, e0, if_true, bind, Except.bind] at h; cases h
  | ok d =>
  cases e2 : pspecMaxBin maxB true (pspecDists p.n p.m) with
  | error e => simp only [pspecAzim, e1, e0, e2, if_true, bind, Except.bind] at h; cases h
  | ok mb => exact ⟨nb, mb, rfl, rfl⟩

private theorem wedge_profile (tppf : ℝ → ℕ → ℝ) {p p' : Arr2 (Option ℝ)} (hs : (p'.n = p.n ∧ p'.m = p.m) ∨ (p'.n = p.m ∧ p'.m = p.n)) {σ : ℕ × ℕ → ℕ × ℕ}
    (hσ : PixelMap p'.n p'.m p.n p.m σ) {t t' δ : ℝ}
    (hv : ∀ i < p'.n, ∀ j < p'.m, p'.get i j = p.get (σ (i, j)).1 (σ (i, j)).2 ∧
      freqRadius p'.n p'.m i j = freqRadius p.n p.m (σ (i, j)).1 (σ (i, j)).2 ∧
      (Along t' δ (rowFreq p'.n i) (colFreq p'.m j) ↔ Along t δ (rowFreq p.n (σ (i, j)).1) (colFreq p.m (σ (i, j)).2)))
    (on : p.n % 2 = 1) (om : p.m % 2 = 1) (h2 : 2 ≤ max p.n p.m) (a : PspecArgs) (hf : a.returnFreqs = true) (ht : a.theta0 = some t)
    (hdl : a.deltaTheta = some δ) (hd0 : 0 < δ) (hd1 : δ < 2 * Real.pi) (hcut : ∀ k : ℤ, t - δ / 2 ≠ (2 * k + 1) * Real.pi)
    (hcut' : ∀ k : ℤ, t' - δ / 2 ≠ (2 * k + 1) * Real.pi) {out : PspecOut} {sd : Arr1 (Option ℝ)} (ho : pspecWithStd tppf none p a = .ok (out, sd)) :
    ∃ out' sd', pspecWithStd tppf none p' { a with theta0 := some t' } = .ok (out', sd') ∧ out'.edges = out.edges ∧ out'.binCents = out.binCents ∧
      (StrictEdges out.edges → 2 ≤ out.edges.n → ∀ k, Real.sqrt ((1 / (p.n : ℝ)) ^ 2 + (1 / (p.m : ℝ)) ^ 2) < out.edges.get k →
        out'.ps1D.get k = out.ps1D.get k ∧ out'.counts.get k = out.counts.get k ∧ sd'.get k = sd.get k) := by
  obtain ⟨nbins, rstd, binsize, logsp, maxB, minB, rf, th, dt⟩ := a
  simp only at hf ht hdl
  subst hf ht hdl
  have hn : 0 < p.n := by omega
  have hm : 0 < p.m := by omega
  obtain ⟨d, hd, -, -, hdg⟩ := freqDist_spec hn hm h2
  obtain ⟨d', hd', -, -, hdg'⟩ := freqDist_spec (n := p'.n) (m := p'.m) (by omega) (by omega) (by omega)
  have hdd : ∀ i < p'.n, ∀ j < p'.m, d'.get i j = d.get (σ (i, j)).1 (σ (i, j)).2 := by
    intro i hi j hj
    obtain ⟨l1, l2⟩ := hσ.lt hi hj
    rw [hdg' i hi j hj, hdg _ l1 _ l2, (hv i hi j hj).2.1]
  have hmax : npMax (pspecDists p'.n p'.m).ravel = npMax (pspecDists p.n p.m).ravel := by
    rcases hs with ⟨e1, e2⟩ | ⟨e1, e2⟩
    · rw [e1, e2]
    · rw [e1, e2, dists_swap]
  have hnb : pspecNbins nbins (pspecDists p'.n p'.m) binsize = pspecNbins nbins (pspecDists p.n p.m) binsize := by
    unfold pspecNbins
    rw [hmax]
  have hmin : pspecMinBin minB true p'.n p'.m = pspecMinBin minB true p.n p.m := by
    unfold pspecMinBin
    rcases hs with ⟨e1, e2⟩ | ⟨e1, e2⟩
    · rw [e1, e2]
    · rw [e1, e2, min_comm]
  have hmb : pspecMaxBin maxB true (pspecDists p'.n p'.m) = pspecMaxBin maxB true (pspecDists p.n p.m) := by
    unfold pspecMaxBin
    cases maxB <;> rfl
  obtain ⟨nb, mb, e1, e2⟩ := wedge_ok ho
  have ho' := wedge_unfold tppf rstd minB logsp t δ hd e1 e2
  rw [ho] at ho'
  obtain ⟨rfl, rfl⟩ := Prod.mk.inj (Except.ok.inj ho')
  have hq := wedge_unfold tppf rstd minB logsp t' δ hd' (hnb.trans e1) (hmb.trans e2)
  rw [hmin] at hq
  generalize pspecEdges logsp (pspecMinBin minB true p.n p.m) mb nb = edges at hq
  refine ⟨_, _, hq, (output_edges _ _ _ _).1.trans (output_edges _ _ _ _).1.symm, (output_edges _ _ _ _).2.trans (output_edges _ _ _ _).2.symm, fun hst h2e k hk => ?_⟩
  rw [(output_edges _ _ _ _).1] at hst h2e hk
  have hM : Real.sqrt ((1 / (p'.n : ℝ)) ^ 2 + (1 / (p'.m : ℝ)) ^ 2) = Real.sqrt ((1 / (p.n : ℝ)) ^ 2 + (1 / (p.m : ℝ)) ^ 2) := by
    rcases hs with ⟨f1, f2⟩ | ⟨f1, f2⟩
    · rw [f1, f2]
    · rw [f1, f2, add_comm]
  refine output_perm tppf _ k (samples_perm (c := fun x => decide (binOf _ x = some k)) hσ hdd (fun i hi j hj => (hv i hi j hj).1) ?_)
  intro i hi j hj hc
  obtain ⟨v1, v2, v3⟩ := hv i hi j hj
  obtain ⟨l1, l2⟩ := hσ.lt hi hj
  have hin := (binOf_eq_some_iff hst h2e _ k).1 (of_decide_eq_true hc)
  have hlow : _ ≤ d'.get i j := hin.2.1
  rw [hdg' i hi j hj] at hlow
  have m1 : ¬ InMiddle p'.n p'.m i j := fun hmid => by
    have := middle_radius (by omega) (by omega) hmid
    rw [hM] at this
    linarith
  have m2 : ¬ InMiddle p.n p.m (σ (i, j)).1 (σ (i, j)).2 := fun hmid => by
    have := middle_radius on om hmid
    rw [← v2] at this
    linarith
  simp only [selected, v1]
  congr 1
  rw [Bool.eq_iff_iff, mask_odd (by omega) (by omega) hi hj hd0 hd1 hcut' m1, mask_odd on om l1 l2 hd0 hd1 hcut m2]
  exact v3

/-- **C115 (azimuthal limits).** For images with odd sizes the azimuthal limits turn with the image: mirroring it (either way) and `theta_0` to `-theta_0`, or
exchanging rows and columns and `theta_0` to `π/2 - theta_0`, gives the same bins, and the same power, count and standard deviation in every bin above the radius of
mode `(1, 1)`.  No lower limit may point exactly along the negative x axis. Missing: images with an even number of rows or columns
(`C115_even_violated`), and the bins at or below the radius of mode `(1, 1)`. -/
theorem C115_wedge_partial (tppf : ℝ → ℕ → ℝ) {img img' ps : Arr2 ℝ} {t t' δ : ℝ}
    (h : (img' = mirror0 img ∧ t' = -t) ∨ (img' = mirror1 img ∧ t' = -t) ∨ (img' = transposed img ∧ t' = Real.pi / 2 - t))
    (on : img.n % 2 = 1) (om : img.m % 2 = 1) (h2 : 2 ≤ max img.n img.m) (apod : Option ApodArgs) (hps : computePspec img apod = .ok ps) (a : PspecArgs)
    (hf : a.returnFreqs = true) (ht : a.theta0 = some t) (hdl : a.deltaTheta = some δ) (hd0 : 0 < δ) (hd1 : δ < 2 * Real.pi)
    (hcut : ∀ k : ℤ, t - δ / 2 ≠ (2 * k + 1) * Real.pi) (hcut' : ∀ k : ℤ, t' - δ / 2 ≠ (2 * k + 1) * Real.pi) {out : PspecOut} {sd : Arr1 (Option ℝ)}
    (ho : pspecWithStd tppf none ((ps2DProperty ps).map some) a = .ok (out, sd)) :
    ∃ ps' out' sd', computePspec img' apod = .ok ps' ∧
      pspecWithStd tppf none ((ps2DProperty ps').map some) { a with theta0 := some t' } = .ok (out', sd') ∧
      out'.edges = out.edges ∧ out'.binCents = out.binCents ∧
      (StrictEdges out.edges → 2 ≤ out.edges.n → ∀ k, Real.sqrt ((1 / (img.n : ℝ)) ^ 2 + (1 / (img.m : ℝ)) ^ 2) < out.edges.get k →
        out'.ps1D.get k = out.ps1D.get k ∧ out'.counts.get k = out.counts.get k ∧ sd'.get k = sd.get k) := by
  have hn : 0 < img.n := by omega
  have hm : 0 < img.m := by omega
  obtain ⟨s1, s2⟩ := pspec_shape hn hm hps
  have oddR : ∀ {n i : ℕ}, n % 2 = 1 → i < n → rowFreq n (negR n i) = -rowFreq n i := by
    intro n i o hi
    rcases (negR_spec hi).2.2 with h | ⟨-, h⟩
    · exact h
    · omega
  have oddC : ∀ {m j : ℕ}, m % 2 = 1 → j < m → colFreq m (negC m j) = -colFreq m j := by
    intro m j o hj
    rcases (negC_spec hj).2.2 with h | ⟨-, h⟩
    · exact h
    · omega
  have fin : ∀ {ps' : Arr2 ℝ} {g' g : ℤ → ℤ → Option ℝ} (n' m' : ℕ), computePspec img' apod = .ok ps' →
      (∀ i < img.n, ∀ j < img.m, ((ps2DProperty ps).map some).get i j = g (rowFreq img.n i) (colFreq img.m j)) →
      ((n' = img.n ∧ m' = img.m) ∨ (n' = img.m ∧ m' = img.n)) →
      ByMode ((ps2DProperty ps').map some) n' m' g' → ∀ σ : ℕ × ℕ → ℕ × ℕ, PixelMap n' m' img.n img.m σ →
      (∀ i < n', ∀ j < m', g' (rowFreq n' i) (colFreq m' j) = g (rowFreq img.n (σ (i, j)).1) (colFreq img.m (σ (i, j)).2) ∧
        freqRadius n' m' i j = freqRadius img.n img.m (σ (i, j)).1 (σ (i, j)).2 ∧
        (Along t' δ (rowFreq n' i) (colFreq m' j) ↔ Along t δ (rowFreq img.n (σ (i, j)).1) (colFreq img.m (σ (i, j)).2))) →
      ∃ ps' out' sd', computePspec img' apod = .ok ps' ∧
      pspecWithStd tppf none ((ps2DProperty ps').map some) { a with theta0 := some t' } = .ok (out', sd') ∧
      out'.edges = out.edges ∧ out'.binCents = out.binCents ∧
      (StrictEdges out.edges → 2 ≤ out.edges.n → ∀ k, Real.sqrt ((1 / (img.n : ℝ)) ^ 2 + (1 / (img.m : ℝ)) ^ 2) < out.edges.get k →
        out'.ps1D.get k = out.ps1D.get k ∧ out'.counts.get k = out.counts.get k ∧ sd'.get k = sd.get k) := by
    intro ps' g' g n' m' hps' hg hs hb σ hσ hv
    obtain ⟨b1, b2, b3⟩ := hb
    obtain ⟨out', sd', k1, k2, k3, k4⟩ := wedge_profile tppf (p' := (ps2DProperty ps').map some) (σ := σ) (t := t) (t' := t') (by rw [s1, s2, b1, b2]; exact hs)
      (by rw [s1, s2, b1, b2]; exact hσ) (by
        rw [s1, s2, b1, b2]
        intro i hi j hj
        obtain ⟨v1, v2, v3⟩ := hv i hi j hj
        obtain ⟨l1, l2⟩ := hσ.lt hi hj
        exact ⟨by rw [b3 i hi j hj, hg _ l1 _ l2, v1], v2, v3⟩) (by rw [s1]; exact on) (by rw [s2]; exact om)
      (by rw [s1, s2]; exact h2) a hf ht hdl hd0 hd1 hcut hcut' ho
    rw [s1, s2] at k4
    exact ⟨ps', out', sd', hps', k1, k2, k3, k4⟩
  rcases h with ⟨rfl, rfl⟩ | ⟨rfl, rfl⟩ | ⟨rfl, rfl⟩
  · obtain ⟨ps', hps', g, ⟨-, -, hg⟩, -, -, hb⟩ := pair_step .rows hn hm apod hps
    refine fin (g' := fun K L => g (-K) L) img.n img.m hps' hg (Or.inl ⟨rfl, rfl⟩) hb (fun q => (negR img.n q.1, q.2))
      (involMap (fun i hi j hj => ⟨(negR_spec hi).1, hj⟩) (fun i hi j hj => by simp only [(negR_spec hi).2.1])) fun i hi j hj => ?_
    refine ⟨by simp only [oddR on hi], (negR_radius hi _ _).symm, ?_⟩
    rw [oddR on hi, ← along_rows t δ, neg_neg]
  · obtain ⟨ps', hps', g, ⟨-, -, hg⟩, -, -, hb⟩ := pair_step .cols hn hm apod hps
    refine fin (g' := fun K L => g K (-L)) img.n img.m hps' hg (Or.inl ⟨rfl, rfl⟩) hb (fun q => (q.1, negC img.m q.2))
      (involMap (fun i hi j hj => ⟨hi, (negC_spec hj).1⟩) (fun i hi j hj => by simp only [(negC_spec hj).2.1])) fun i hi j hj => ?_
    refine ⟨by simp only [oddC om hj], (negC_radius hj _ _).symm, ?_⟩
    rw [oddC om hj, ← along_cols t δ, neg_neg]
  · obtain ⟨ps', hps', g, ⟨-, -, hg⟩, -, -, hb⟩ := pair_step .swap hn hm apod hps
    refine fin (g' := fun K L => g L K) img.m img.n hps' hg (Or.inr ⟨rfl, rfl⟩) hb (fun q => (img.n - 1 - q.2, img.m - 1 - q.1)) (turnMap _ _) fun i hi j hj => ?_
    obtain ⟨f1, f2⟩ := swap_freq hi hj
    refine ⟨by simp only [f1, f2], turn_radius hi hj, ?_⟩
    simp only [f1, f2]
    exact along_swap t δ _ _

/-- **C115 (azimuthal limits, even sizes).** For images with even sizes the directions are measured from half a pixel beside the zero frequency: with `theta_0 = 0` and
limits narrower than the angle of mode `(1, L)`, mode `(0, L)`, which lies exactly along `theta_0`, is left out, and mode `(-1, L)`, which lies outside the limits, is used. -/
theorem C115_even_violated (tppf : ℝ → ℕ → ℝ) (p : Arr2 (Option ℝ)) (a : PspecArgs) (out : PspecOut) (sd : Arr1 (Option ℝ)) (δ : ℝ) (L : ℕ)
    (hn : p.n % 2 = 0) (hm : p.m % 2 = 0) (hn0 : 0 < p.n) (hL1 : 1 ≤ L) (hL : 2 * L < p.m) (hf : a.returnFreqs = true) (ht : a.theta0 = some 0) (hdl : a.deltaTheta = some δ) (hd0 : 0 < δ)
    (hd1 : δ < 2 * Real.arctan (1 / L)) (ho : pspecWithStd tppf none p a = .ok (out, sd)) :
    ∃ mask, out.azim = some mask ∧
      (∃ i < p.n, ∃ j < p.m, rowFreq p.n i = 0 ∧ colFreq p.m j = L ∧ Along 0 δ 0 L ∧ mask.get i j = false) ∧
      (∃ i < p.n, ∃ j < p.m, rowFreq p.n i = -1 ∧ colFreq p.m j = L ∧ ¬ Along 0 δ (-1) L ∧ mask.get i j = true) := by
  have hLr : (1 : ℝ) ≤ L := by exact_mod_cast hL1
  have hpi := Real.pi_pos
  have hat := Real.arctan_lt_pi_div_two (1 / (L : ℝ))
  have hcut : ∀ k : ℤ, (0 : ℝ) - δ / 2 ≠ (2 * k + 1) * Real.pi := by
    intro k hk
    rcases le_or_gt 0 k with h | h
    · have : (0 : ℝ) ≤ k := by exact_mod_cast h
      nlinarith
    · have : (k : ℝ) ≤ -1 := by exact_mod_cast (show k ≤ -1 by omega)
      nlinarith
  have bnd : ∀ {φ : ℝ}, |φ - 0| ≤ δ / 2 → -Real.arctan (1 / L) < φ ∧ φ < Real.arctan (1 / L) ∧ 0 < Real.cos φ := by
    intro φ h
    rw [sub_zero, abs_le] at h
    exact ⟨by linarith, by linarith, Real.cos_pos_of_mem_Ioo ⟨by linarith, by linarith⟩⟩
  have tanlt : ∀ {φ : ℝ}, |φ - 0| ≤ δ / 2 → Real.sin φ * L < Real.cos φ ∧ -Real.cos φ < Real.sin φ * L := by
    intro φ h
    obtain ⟨b1, b2, b3⟩ := bnd h
    have h1 : Real.tan φ < 1 / L := by
      have := Real.tan_lt_tan_of_lt_of_lt_pi_div_two (by linarith) hat b2
      rwa [Real.tan_arctan] at this
    have h2 : -(1 / (L : ℝ)) < Real.tan φ := by
      have := Real.tan_lt_tan_of_lt_of_lt_pi_div_two (x := -Real.arctan (1 / L)) (y := φ) (by linarith) (by linarith) b1
      rwa [Real.tan_neg, Real.tan_arctan] at this
    rw [Real.tan_eq_sin_div_cos] at h1 h2
    rw [div_lt_div_iff₀ b3 (by linarith)] at h1
    rw [← neg_div, div_lt_div_iff₀ (by linarith) b3] at h2
    constructor <;> linarith
  have no1 : ¬ Points 0 δ L (-1) := by
    rintro ⟨φ, r, hr, h, e1, e2⟩
    have := (tanlt h).2
    have : r * -Real.cos φ < r * (Real.sin φ * L) := mul_lt_mul_of_pos_left this hr
    nlinarith
  have no2 : ¬ Points 0 δ L 1 := by
    rintro ⟨φ, r, hr, h, e1, e2⟩
    have := (tanlt h).1
    have : r * (Real.sin φ * L) < r * Real.cos φ := mul_lt_mul_of_pos_left this hr
    nlinarith
  have no3 : ∀ x y : ℝ, x < 0 → ¬ Points 0 δ x y := by
    rintro x y hx ⟨φ, r, hr, h, e1, e2⟩
    have := mul_pos hr (bnd h).2.2
    linarith
  have yes : Points 0 δ L 0 := ⟨0, L, by linarith, by simp; linarith, by simp, by simp⟩
  obtain ⟨nbins, rstd, binsize, logsp, maxB, minB, rf, th, dt⟩ := a
  simp only at hf ht hdl
  subst hf ht hdl
  obtain ⟨d, hd, -, -, -⟩ := freqDist_spec (n := p.n) (m := p.m) hn0 (by omega) (by omega)
  obtain ⟨nb, mb, e1, e2⟩ := wedge_ok ho
  have ho' := wedge_unfold tppf rstd minB logsp 0 δ hd e1 e2
  rw [ho] at ho'
  obtain ⟨rfl, rfl⟩ := Prod.mk.inj (Except.ok.inj ho')
  refine ⟨azimMask p.n p.m 0 δ, rfl, ⟨p.n / 2 - 1, by omega, p.m / 2 + L, by omega, by unfold rowFreq; omega, by unfold colFreq; omega, Or.inl (by simpa using yes), ?_⟩,
    ⟨p.n / 2, by omega, p.m / 2 + L, by omega, by unfold rowFreq; omega, by unfold colFreq; omega, ?_, ?_⟩⟩
  · rw [Bool.eq_false_iff]
    intro hc
    rw [mask_angles (by omega) (by omega) hd0 (by linarith) hcut] at hc
    have x1 : (((p.m / 2 + L : ℕ) : ℝ) - (p.m / 2 : ℕ)) = L := by push_cast; ring
    have y1 : (((p.n / 2 - 1 : ℕ) : ℝ) - (p.n / 2 : ℕ)) = -1 := by
      rw [Nat.cast_sub (by omega)]; push_cast; ring
    have x2 : (((p.m - 1 - (p.m / 2 + L) : ℕ) : ℝ) - (p.m / 2 : ℕ)) < 0 := by
      have : (p.m - 1 - (p.m / 2 + L) : ℕ) < p.m / 2 := by omega
      have : (((p.m - 1 - (p.m / 2 + L) : ℕ)) : ℝ) < (p.m / 2 : ℕ) := by exact_mod_cast this
      linarith
    rcases hc with hc | hc | hc
    · unfold InMiddle at hc
      omega
    · unfold pixelAngle at hc
      rw [x1, y1, ang_points (Or.inr (by norm_num))] at hc
      exact no1 hc
    · unfold pixelAngle at hc
      rw [ang_points (Or.inl x2.ne)] at hc
      exact no3 _ _ x2 hc
  · rintro (hc | hc)
    · exact no2 (by simpa using hc)
    · exact no3 _ _ (by push_cast; linarith) hc
  · rw [mask_angles (by omega) (by omega) hd0 (by linarith) hcut]
    refine Or.inr (Or.inl ?_)
    unfold pixelAngle
    rw [show (((p.m / 2 + L : ℕ) : ℝ) - (p.m / 2 : ℕ)) = L by push_cast; ring, sub_self, ang_points (Or.inl (by linarith))]
    exact yes

/-! ### Limits along the axis of the two-dimensional fit -/

private theorem sin_sq_le {a b : ℝ} (hb : 0 ≤ b) (hb2 : b ≤ Real.pi / 2) (ha : |a| ≤ Real.pi / 2) : Real.sin a ^ 2 ≤ Real.sin b ^ 2 ↔ |a| ≤ b := by
  have hp := Real.pi_pos
  have ca : 0 ≤ Real.cos |a| := Real.cos_nonneg_of_mem_Icc ⟨by linarith [abs_nonneg a], ha⟩
  have cb : 0 ≤ Real.cos b := Real.cos_nonneg_of_mem_Icc ⟨by linarith, hb2⟩
  have e1 := Real.sin_sq_add_cos_sq a
  have e2 := Real.sin_sq_add_cos_sq b
  rw [← Real.cos_abs a] at e1
  constructor
  · intro h
    by_contra hc
    push Not at hc
    have := Real.cos_lt_cos_of_nonneg_of_le_pi hb (by linarith) hc
    nlinarith
  · intro h
    have := Real.cos_le_cos_of_nonneg_of_le_pi (abs_nonneg a) (by linarith) h
    nlinarith

/-- A mode lies along `t` exactly when its distance from the line through the zero frequency in that direction is small compared with its radius. -/
private theorem along_iff {t δ : ℝ} {K L : ℤ} (h0 : K ≠ 0 ∨ L ≠ 0) (hd0 : 0 ≤ δ) (hd1 : δ ≤ Real.pi) :
    Along t δ K L ↔ ((L : ℝ) * Real.sin t + K * Real.cos t) ^ 2 ≤ ((L : ℝ) ^ 2 + (K : ℝ) ^ 2) * Real.sin (δ / 2) ^ 2 := by
  have hp := Real.pi_pos
  have dist : ∀ {x y φ r : ℝ}, x = r * Real.cos φ → y = r * Real.sin φ → (x * Real.sin t - y * Real.cos t) ^ 2 = r ^ 2 * Real.sin (φ - t) ^ 2 ∧ x ^ 2 + y ^ 2 = r ^ 2 := by
    rintro x y φ r rfl rfl
    refine ⟨by rw [Real.sin_sub]; ring, ?_⟩
    have := Real.sin_sq_add_cos_sq φ
    linear_combination r ^ 2 * this
  constructor
  · rintro (⟨φ, r, hr, h, e1, e2⟩ | ⟨φ, r, hr, h, e1, e2⟩)
    · obtain ⟨d1, d2⟩ := dist e1 e2
      have := (sin_sq_le (a := φ - t) (b := δ / 2) (by linarith) (by linarith) (by linarith)).2 h
      have d1' : ((L : ℝ) * Real.sin t + K * Real.cos t) ^ 2 = r ^ 2 * Real.sin (φ - t) ^ 2 := by rw [← d1]; ring
      have d2' : (L : ℝ) ^ 2 + (K : ℝ) ^ 2 = r ^ 2 := by rw [← d2]; ring
      rw [d1', d2']
      exact mul_le_mul_of_nonneg_left this (sq_nonneg r)
    · obtain ⟨d1, d2⟩ := dist e1 e2
      have := (sin_sq_le (a := φ - t) (b := δ / 2) (by linarith) (by linarith) (by linarith)).2 h
      have d1' : ((L : ℝ) * Real.sin t + K * Real.cos t) ^ 2 = r ^ 2 * Real.sin (φ - t) ^ 2 := by rw [← d1]; ring
      have d2' : (L : ℝ) ^ 2 + (K : ℝ) ^ 2 = r ^ 2 := by rw [← d2]; ring
      rw [d1', d2']
      exact mul_le_mul_of_nonneg_left this (sq_nonneg r)
  · intro h
    set z : ℂ := ⟨(L : ℝ), -(K : ℝ)⟩ with hz
    have hz0 : z ≠ 0 := by
      intro e
      have e1 := congrArg Complex.re e
      have e2 := congrArg Complex.im e
      simp only [hz, Complex.zero_re, Complex.zero_im, neg_eq_zero, Int.cast_eq_zero] at e1 e2
      tauto
    have hr := norm_pos_iff.2 hz0
    have e1 : (L : ℝ) = ‖z‖ * Real.cos z.arg := (Complex.norm_mul_cos_arg z).symm
    have e2 : -(K : ℝ) = ‖z‖ * Real.sin z.arg := (Complex.norm_mul_sin_arg z).symm
    set k : ℤ := round ((z.arg - t) / Real.pi) with hk
    have hφ : |z.arg - k * Real.pi - t| ≤ Real.pi / 2 := by
      have h1 := abs_sub_round ((z.arg - t) / Real.pi)
      rw [show z.arg - k * Real.pi - t = ((z.arg - t) / Real.pi - k) * Real.pi by field_simp; ring, abs_mul, abs_of_pos hp]
      nlinarith
    have hsin : Real.sin (z.arg - k * Real.pi - t) ^ 2 ≤ Real.sin (δ / 2) ^ 2 := by
      have f1 : Real.sin (z.arg - k * Real.pi - t) ^ 2 = Real.sin (z.arg - t) ^ 2 := by
        rw [show z.arg - k * Real.pi - t = z.arg - t - k * Real.pi by ring, Real.sin_sub_int_mul_pi, mul_pow, ← zpow_natCast, ← zpow_mul, mul_comm k, zpow_mul]
        simp
      obtain ⟨d1, d2⟩ := dist e1 e2
      have d1' : ((L : ℝ) * Real.sin t + K * Real.cos t) ^ 2 = ‖z‖ ^ 2 * Real.sin (z.arg - t) ^ 2 := by rw [← d1]; ring
      have d2' : (L : ℝ) ^ 2 + (K : ℝ) ^ 2 = ‖z‖ ^ 2 := by rw [← d2]; ring
      rw [d1', d2'] at h
      rw [f1]
      exact le_of_mul_le_mul_left h (by positivity)
    have hin := (sin_sq_le (by linarith) (by linarith) hφ).1 hsin
    rcases Int.even_or_odd k with ev | od
    · refine Or.inl ⟨z.arg - k * Real.pi, ‖z‖, hr, hin, ?_, ?_⟩
      · rw [Real.cos_sub_int_mul_pi, ev.neg_one_zpow, one_mul, ← e1]
      · rw [Real.sin_sub_int_mul_pi, ev.neg_one_zpow, one_mul, ← e2]
    · refine Or.inr ⟨z.arg - k * Real.pi, ‖z‖, hr, hin, ?_, ?_⟩
      · rw [Real.cos_sub_int_mul_pi, od.neg_one_zpow, neg_one_mul, mul_neg, ← e1]
      · rw [Real.sin_sub_int_mul_pi, od.neg_one_zpow, neg_one_mul, mul_neg, ← e2, neg_neg]

/-- **C115 (limits along the axis of the two-dimensional fit).** In square images of odd size, azimuthal limits about the direction of the two-dimensional fit (modulo `π`)
use, outside the middle block, the modes along the axis of highest fitted power: at equal radius no mode left out has more fitted power than a mode used. -/
theorem C115_major_axis (tppf : ℝ → ℕ → ℝ) (p : Arr2 (Option ℝ)) (a : PspecArgs) (out : PspecOut) (sd : Arr1 (Option ℝ)) (n : ℕ) (hn : p.n = n) (hm : p.m = n)
    (ho : n % 2 = 1) (hn2 : 2 ≤ n) (f : EllipPar) (hg : f.gamma ≤ 0) (t δ : ℝ) (ht : a.theta0 = some t) (hdl : a.deltaTheta = some δ) (hft : ∃ k : ℤ, t = f.theta + k * Real.pi)
    (hd0 : 0 < δ) (hd1 : δ ≤ Real.pi) (hcut : ∀ k : ℤ, t - δ / 2 ≠ (2 * k + 1) * Real.pi) (hf : a.returnFreqs = true)
    (hr : pspecWithStd tppf none p a = .ok (out, sd)) :
    ∃ mask, out.azim = some mask ∧ ∀ i < n, ∀ j < n, ∀ i' < n, ∀ j' < n, ¬ InMiddle n n i j → ¬ InMiddle n n i' j' →
      freqRadius n n i j = freqRadius n n i' j' → mask.get i j = true → mask.get i' j' = false →
      f.eval ((colFreq n j' : ℝ) / n) ((rowFreq n i' : ℝ) / n) ≤ f.eval ((colFreq n j : ℝ) / n) ((rowFreq n i : ℝ) / n) := by
  have hp := Real.pi_pos
  obtain ⟨nbins, rstd, binsize, logsp, maxB, minB, rf, th, dt⟩ := a
  simp only at hf ht hdl
  subst hf ht hdl
  obtain ⟨d, hd, -, -, -⟩ := freqDist_spec (n := p.n) (m := p.m) (by omega) (by omega) (by omega)
  obtain ⟨nb, mb, e1, e2⟩ := wedge_ok hr
  have ho' := wedge_unfold tppf rstd minB logsp t δ hd e1 e2
  rw [hr] at ho'
  obtain ⟨rfl, rfl⟩ := Prod.mk.inj (Except.ok.inj ho')
  refine ⟨azimMask p.n p.m t δ, rfl, ?_⟩
  rw [hn, hm]
  intro i hi j hj i' hi' j' hj' m1 m2 hrad h1 h2
  have hN : (0 : ℝ) < n := by exact_mod_cast (by omega : 0 < n)
  have nz : ∀ {i j : ℕ}, ¬ InMiddle n n i j → i < n → j < n → rowFreq n i ≠ 0 ∨ colFreq n j ≠ 0 := by
    intro i j h hi hj
    by_contra hc
    push Not at hc
    apply h
    unfold InMiddle
    unfold rowFreq colFreq at hc
    omega
  have z1 := nz m1 hi hj
  have z2 := nz m2 hi' hj'
  rw [mask_odd ho ho hi hj hd0 (by linarith) hcut m1, along_iff z1 hd0.le hd1] at h1
  rw [← Bool.not_eq_true, mask_odd ho ho hi' hj' hd0 (by linarith) hcut m2, along_iff z2 hd0.le hd1, not_le] at h2
  have rad : ∀ {i j : ℕ}, (rowFreq n i ≠ 0 ∨ colFreq n j ≠ 0) → freqRadius n n i j ^ 2 = ((rowFreq n i : ℝ) / n) ^ 2 + ((colFreq n j : ℝ) / n) ^ 2 := by
    intro i j h
    unfold freqRadius
    rw [if_neg (by tauto), Real.sq_sqrt (by positivity)]
  have hR : (colFreq n j : ℝ) ^ 2 + (rowFreq n i : ℝ) ^ 2 = (colFreq n j' : ℝ) ^ 2 + (rowFreq n i' : ℝ) ^ 2 := by
    have := rad z1
    rw [hrad, rad z2] at this
    field_simp at this
    linarith
  have nzr : ∀ {i j : ℕ}, (rowFreq n i ≠ 0 ∨ colFreq n j ≠ 0) → (colFreq n j : ℝ) / n ≠ 0 ∨ (rowFreq n i : ℝ) / n ≠ 0 := by
    intro i j h
    rcases h with h | h
    · exact Or.inr (div_ne_zero (by exact_mod_cast h) hN.ne')
    · exact Or.inl (div_ne_zero (by exact_mod_cast h) hN.ne')
  have q1 := C14_positive _ _ f.theta f.e (nzr z1)
  have q2 := C14_positive _ _ f.theta f.e (nzr z2)
  obtain ⟨r0, r1⟩ := C14_ellip_range f.e
  have quad : ∀ K L : ℝ, ellipQuad (L / n) (K / n) (ellipOf f.e) f.theta =
      (ellipOf f.e ^ 2 * (L ^ 2 + K ^ 2) + (1 - ellipOf f.e ^ 2) * (L * Real.sin t + K * Real.cos t) ^ 2) / n ^ 2 := by
    intro K L
    obtain ⟨k, hk⟩ := hft
    have hs : (L * Real.sin t + K * Real.cos t) ^ 2 = (L * Real.sin f.theta + K * Real.cos f.theta) ^ 2 := by
      rw [hk, Real.sin_add_int_mul_pi, Real.cos_add_int_mul_pi]
      rcases Int.even_or_odd k with ev | od
      · rw [ev.neg_one_zpow]; ring
      · rw [od.neg_one_zpow]; ring
    rw [hs, C14_ellipse]
    have := Real.sin_sq_add_cos_sq f.theta
    field_simp
    linear_combination (ellipOf f.e ^ 2 * (L ^ 2 + K ^ 2)) * this
  have hQ : ellipQuad ((colFreq n j : ℝ) / n) ((rowFreq n i : ℝ) / n) (ellipOf f.e) f.theta ≤
      ellipQuad ((colFreq n j' : ℝ) / n) ((rowFreq n i' : ℝ) / n) (ellipOf f.e) f.theta := by
    rw [quad, quad, hR]
    rw [hR] at h1
    apply div_le_div_of_nonneg_right _ (by positivity)
    have h3 := h1.trans h2.le
    have h4 : 0 ≤ 1 - ellipOf f.e ^ 2 := by nlinarith
    nlinarith [mul_le_mul_of_nonneg_left h3 h4]
  have := (log10_le_iff q1 q2).2 hQ
  unfold EllipPar.eval ellipEvaluate
  simp only
  rw [if_neg q1.ne', if_neg q2.ne']
  nlinarith

/-! ### Cases that meet the hypotheses -/

/-- A 2×3 image turned by a right angle. -/
example (tppf : ℝ → ℕ → ℝ) (a : PspecArgs) (hf : a.returnFreqs = true) (ht : a.theta0 = none) :
    ∃ ps ps', computePspec ⟨2, 3, fun i j => i + 2 * j ^ 2⟩ none = .ok ps ∧
      computePspec (mirror0 (transposed ⟨2, 3, fun i j => i + 2 * j ^ 2⟩)) none = .ok ps' ∧
      pspecWithStd tppf none ((ps2DProperty ps').map some) a = pspecWithStd tppf none ((ps2DProperty ps).map some) a := by
  obtain ⟨ps, hps, -⟩ := computePspec_none ⟨2, 3, fun i j => (i : ℝ) + 2 * j ^ 2⟩ (by norm_num) (by norm_num)
  obtain ⟨ps', h1, h2⟩ := C115_profile tppf (.upsideDown (.swapped (.same _))) (by norm_num) (by norm_num) (by norm_num) none hps a hf ht
  exact ⟨ps, ps', hps, h1, h2⟩

/-- The same with a split-cosine-bell window: its spectrum exists. -/
example : ∃ ps, computePspec ⟨4, 6, fun i j => i + 2 * j ^ 2⟩ (some ⟨"splitcosinebell", 0.3, 0.2⟩) = .ok ps := by
  have hw : ∃ w, apodizingKernel "splitcosinebell" 0.3 0.2 [4, 6] = .ok w ∧ w.n = 4 ∧ w.m = 6 := ⟨_, rfl, rfl, rfl⟩
  obtain ⟨w, hw, w1, w2⟩ := hw
  obtain ⟨q, hq, -⟩ := computePspec_none ⟨4, 6, fun i j => ((i : ℝ) + 2 * j ^ 2) * w.get i j⟩ (by norm_num) (by norm_num)
  exact ⟨q, window_of_psd (w := w) hw (by simp [mul2, w1, w2]) hq⟩

private theorem no_cut {x : ℝ} (h1 : -Real.pi < x) (h2 : x < Real.pi) : ∀ k : ℤ, x ≠ (2 * k + 1) * Real.pi := by
  intro k hk
  have hp := Real.pi_pos
  rcases le_or_gt 0 k with h | h
  · have : (0 : ℝ) ≤ k := by exact_mod_cast h
    nlinarith
  · have : (k : ℝ) ≤ -1 := by exact_mod_cast (show k ≤ -1 by omega)
    nlinarith

/-- Limits of a 5×7 image about 45 degrees, in bins from 0.3 to 0.5. -/
example (tppf : ℝ → ℕ → ℝ) : ∃ (ps : Arr2 ℝ) (out : PspecOut) (sd : Arr1 (Option ℝ)), computePspec ⟨5, 7, fun i j => i + 2 * j ^ 2⟩ none = .ok ps ∧
    pspecWithStd tppf none ((ps2DProperty ps).map some) ⟨some 3, true, 1, false, some 0.5, some 0.3, true, some (Real.pi / 4), some (Real.pi / 8)⟩ = .ok (out, sd) ∧
    StrictEdges out.edges ∧ 2 ≤ out.edges.n ∧ Real.sqrt ((1 / ((5 : ℕ) : ℝ)) ^ 2 + (1 / ((7 : ℕ) : ℝ)) ^ 2) < out.edges.get 0 ∧
    (∀ k : ℤ, Real.pi / 4 - Real.pi / 8 / 2 ≠ (2 * k + 1) * Real.pi) ∧ ∀ k : ℤ, -(Real.pi / 4) - Real.pi / 8 / 2 ≠ (2 * k + 1) * Real.pi := by
  have hp := Real.pi_pos
  obtain ⟨ps, hps, -⟩ := computePspec_none ⟨5, 7, fun i j => (i : ℝ) + 2 * j ^ 2⟩ (by norm_num) (by norm_num)
  obtain ⟨s1, s2⟩ := pspec_shape (by norm_num) (by norm_num) hps
  obtain ⟨d, hd, -⟩ := freqDist_spec (n := ((ps2DProperty ps).map some).n) (m := ((ps2DProperty ps).map some).m) (by rw [s1]; norm_num) (by rw [s2]; norm_num)
    (by rw [s1, s2]; norm_num)
  have h := wedge_unfold tppf (p := (ps2DProperty ps).map some) (nbins := some 3) true (binsize := 1) (maxB := some 0.5) (some 0.3) false (Real.pi / 4) (Real.pi / 8) hd rfl rfl
  refine ⟨ps, _, _, hps, h, ?_, ?_, ?_, no_cut (by linarith) (by linarith), no_cut (by linarith) (by linarith)⟩
  · rw [(output_edges _ _ _ _).1]
    exact linspace_edges (by norm_num [pspecMinBin]) (by norm_num)
  · rw [(output_edges _ _ _ _).1]
    show 2 ≤ 3 + 1
    norm_num
  · rw [(output_edges _ _ _ _).1]
    have : (pspecEdges false (pspecMinBin (some 0.3) true ((ps2DProperty ps).map some).n ((ps2DProperty ps).map some).m) 0.5 3).get 0 = 0.3 := by
      norm_num [pspecEdges, linspace, pspecMinBin]
    rw [this, Real.sqrt_lt' (by norm_num)]
    norm_num

/-- The same for limits about the x axis of a 4×6 spectrum narrower than the angle of mode `(1, 2)`, and for limits about the axis of a fit of a 5×5 spectrum. -/
example (tppf : ℝ → ℕ → ℝ) (p : Arr2 (Option ℝ)) (hn : p.n = 4) (hm : p.m = 6) : ∃ out sd,
    pspecWithStd tppf none p ⟨some 3, true, 1, false, some 0.5, some 0.3, true, some 0, some (Real.arctan (1 / (2 : ℕ)))⟩ = .ok (out, sd) ∧
    0 < Real.arctan (1 / (2 : ℕ)) ∧ Real.arctan (1 / (2 : ℕ)) < 2 * Real.arctan (1 / (2 : ℕ)) ∧ 2 * 2 < p.m := by
  obtain ⟨d, hd, -⟩ := freqDist_spec (n := p.n) (m := p.m) (by omega) (by omega) (by omega)
  have h0 : 0 < Real.arctan (1 / (2 : ℕ)) := Real.arctan_pos.2 (by norm_num)
  exact ⟨_, _, wedge_unfold tppf (nbins := some 3) true (binsize := 1) (maxB := some 0.5) (some 0.3) false 0 _ hd rfl rfl, h0, by linarith, by omega⟩

example (tppf : ℝ → ℕ → ℝ) (p : Arr2 (Option ℝ)) (hn : p.n = 5) (hm : p.m = 5) : ∃ out sd,
    pspecWithStd tppf none p ⟨some 3, true, 1, false, some 0.5, some 0.3, true, some 1, some 1⟩ = .ok (out, sd) ∧
    (∃ k : ℤ, (1 : ℝ) = (⟨0, some 0, 1, -3⟩ : EllipPar).theta + k * Real.pi) ∧ ∀ k : ℤ, (1 : ℝ) - 1 / 2 ≠ (2 * k + 1) * Real.pi := by
  obtain ⟨d, hd, -⟩ := freqDist_spec (n := p.n) (m := p.m) (by omega) (by omega) (by omega)
  exact ⟨_, _, wedge_unfold tppf (nbins := some 3) true (binsize := 1) (maxB := some 0.5) (some 0.3) false 1 _ hd rfl rfl, ⟨0, by simp⟩,
    no_cut (by linarith [Real.pi_gt_three]) (by linarith [Real.pi_gt_three])⟩

end TS
