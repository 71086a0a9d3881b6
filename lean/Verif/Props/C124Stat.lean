import Verif.Props.C124
import Verif.Props.C41
import Verif.Props.C43
import Mathlib.Algebra.Order.Group.Multiset
import Mathlib.Algebra.BigOperators.Group.Multiset.Basic

/-! C124: a periodic map or cube shown over several periods. Moment maps and Tsallis distributions with periodic boundaries. -/

namespace TS
open Finset

/-! ### Moment maps -/

private theorem emod_tile (p n : ℕ) (hp : 0 < p) (hn : 0 < n) (i : ℤ) : (i % ((p * n : ℕ) : ℤ)).toNat % n = (i % (n : ℤ)).toNat := by
  have hpn : (0 : ℤ) < ((p * n : ℕ) : ℤ) := by exact_mod_cast Nat.mul_pos hp hn
  have h1 := Int.emod_nonneg i hpn.ne'
  have h2 := Int.emod_nonneg i (show (n : ℤ) ≠ 0 by omega)
  have e : (((i % ((p * n : ℕ) : ℤ)).toNat % n : ℕ) : ℤ) = ((i % (n : ℤ)).toNat : ℤ) := by
    rw [Int.natCast_mod, Int.toNat_of_nonneg h1, Int.toNat_of_nonneg h2, Int.emod_emod_of_dvd _ (by push_cast; exact dvd_mul_left _ _)]
  exact_mod_cast e

private theorem ext_tile {p q : ℕ} (hp : 0 < p) (hq : 0 < q) (a : Arr2 (Option ℝ)) (hn : 0 < a.n) (hm : 0 < a.m) (i j : ℤ) :
    Spec.periodicExt (Spec.tiled p q a) i j = Spec.periodicExt a i j := by
  show a.get ((i % ((p * a.n : ℕ) : ℤ)).toNat % a.n) ((j % ((q * a.m : ℕ) : ℤ)).toNat % a.m) = a.get (i % (a.n : ℤ)).toNat (j % (a.m : ℤ)).toNat
  rw [emod_tile p a.n hp hn, emod_tile q a.m hq hm]

private theorem ext_mod (a : Arr2 (Option ℝ)) (i j : ℕ) (x y : ℤ) :
    Spec.periodicExt a (((i % a.n : ℕ) : ℤ) + x) (((j % a.m : ℕ) : ℤ) + y) = Spec.periodicExt a (i + x) (j + y) := by
  unfold Spec.periodicExt
  rw [Int.natCast_mod, Int.natCast_mod, Int.emod_add_emod, Int.emod_add_emod]

/-- **Moment maps.** With periodic boundaries (the default) the maps of the mean, variance, skewness and kurtosis of a repeated image, with weights repeated with it,
are the repeated maps, for every radius and fraction. -/
theorem C124_moments {p q : ℕ} (hp : 0 < p) (hq : 0 < q) (junkI junkW junkI' junkW' : ℕ → ℕ → Option ℝ) (minFrac rad : ℝ) (img wgt : Arr2 (Option ℝ))
    (hw : wgt.n = img.n ∧ wgt.m = img.m) (hrad : 0 < rad) (hf : 0 < minFrac ∧ minFrac ≤ 1) :
    ∃ res res', spatialDistrib junkI junkW true minFrac rad img wgt = .ok res ∧
      spatialDistrib junkI' junkW' true minFrac rad (Spec.tiled p q img) (Spec.tiled p q wgt) = .ok res' ∧ res'.Same (Spec.tiled p q res) := by
  obtain ⟨res, e, n1, m1, g⟩ := C43_maps_partial junkI junkW true minFrac rad img wgt hw hrad hf
  obtain ⟨res', e', n1', m1', g'⟩ := C43_maps_partial junkI' junkW' true minFrac rad (Spec.tiled p q img) (Spec.tiled p q wgt)
    ⟨by show p * wgt.n = p * img.n; rw [hw.1], by show q * wgt.m = q * img.m; rw [hw.2]⟩ hrad hf
  refine ⟨res, res', e, e', ?_, ?_, fun i hi j hj => ?_⟩
  · rw [n1']
    show p * img.n = p * res.n
    rw [n1]
  · rw [m1']
    show q * img.m = q * res.m
    rw [m1]
  rw [n1'] at hi
  rw [m1'] at hj
  have hi' : i < p * img.n := hi
  have hj' : j < q * img.m := hj
  have hn : 0 < img.n := Nat.pos_of_ne_zero fun h => by simp [h] at hi'
  have hm : 0 < img.m := Nat.pos_of_ne_zero fun h => by simp [h] at hj'
  show res'.get i j = res.get (i % res.n) (j % res.m)
  rw [n1, m1, g' i hi j hj, g _ (Nat.mod_lt _ hn) _ (Nat.mod_lt _ hm)]
  have near : ∀ a : Arr2 (Option ℝ), a.n = img.n → a.m = img.m → ∀ u v R : ℤ,
      Spec.contExt true (Spec.tiled p q a) ((i : ℤ) + u - R) ((j : ℤ) + v - R) =
        Spec.contExt true a (((i % img.n : ℕ) : ℤ) + u - R) (((j % img.m : ℕ) : ℤ) + v - R) := by
    intro a ha hb u v R
    show Spec.periodicExt (Spec.tiled p q a) _ _ = Spec.periodicExt a _ _
    rw [ext_tile hp hq a (by omega) (by omega), ← ha, ← hb, add_sub_assoc, add_sub_assoc, add_sub_assoc, add_sub_assoc, ext_mod]
  have cnt : ∀ a : Arr2 (Option ℝ), a.n = img.n → a.m = img.m → Spec.squareCount (Spec.contExt true (Spec.tiled p q a)) ⌈rad⌉₊ i j =
      Spec.squareCount (Spec.contExt true a) ⌈rad⌉₊ ((i % img.n : ℕ) : ℤ) ((j % img.m : ℕ) : ℤ) := by
    intro a ha hb
    unfold Spec.squareCount
    congr 1
    refine filter_congr fun x _ => ?_
    rw [near a ha hb]
  have pix : Spec.circlePixels (Spec.contExt true (Spec.tiled p q img)) (Spec.contExt true (Spec.tiled p q wgt)) ⌈rad⌉₊ i j =
      Spec.circlePixels (Spec.contExt true img) (Spec.contExt true wgt) ⌈rad⌉₊ ((i % img.n : ℕ) : ℤ) ((j % img.m : ℕ) : ℤ) := by
    unfold Spec.circlePixels
    refine List.flatMap_congr fun u _ => List.map_congr_left fun v _ => ?_
    rw [near img rfl rfl, near wgt hw.1 hw.2]
  simp only [cnt img rfl rfl, cnt wgt hw.1 hw.2, pix]

/-! ### Lists with every entry repeated -/

/-- `X` has the entries of `x`, each `k` times. -/
def Copies {α : Type} (k : ℕ) (X x : List α) : Prop := (X : Multiset α) = k • (x : Multiset α)

theorem Copies.map {α β : Type} {k : ℕ} {X x : List α} (h : Copies k X x) (f : α → β) : Copies k (X.map f) (x.map f) := by
  unfold Copies at *
  rw [← Multiset.map_coe, ← Multiset.map_coe, h, Multiset.map_nsmul]

private theorem filterMap_nsmul {α β : Type} (f : α → Option β) (k : ℕ) (s : Multiset α) : Multiset.filterMap f (k • s) = k • Multiset.filterMap f s := by
  induction k with
  | zero => rw [zero_nsmul, zero_nsmul, Multiset.filterMap_zero]
  | succ k ih => rw [succ_nsmul, succ_nsmul, Multiset.filterMap_add, ih]

theorem Copies.filterMap {α β : Type} {k : ℕ} {X x : List α} (h : Copies k X x) (f : α → Option β) : Copies k (X.filterMap f) (x.filterMap f) := by
  unfold Copies at *
  rw [← Multiset.filterMap_coe, ← Multiset.filterMap_coe, h, filterMap_nsmul]

theorem Copies.valid {k : ℕ} {X x : List (Option ℝ)} (h : Copies k X x) : Copies k (validVals X) (validVals x) := by
  unfold validVals
  exact h.filterMap _

theorem Copies.length {α : Type} {k : ℕ} {X x : List α} (h : Copies k X x) : X.length = k * x.length := by
  have := congrArg Multiset.card h
  rwa [Multiset.card_nsmul, Multiset.coe_card, Multiset.coe_card] at this

theorem Copies.sum {k : ℕ} {X x : List ℝ} (h : Copies k X x) : X.sum = k * x.sum := by
  have := congrArg Multiset.sum h
  rwa [Multiset.sum_nsmul, Multiset.sum_coe, Multiset.sum_coe, nsmul_eq_mul] at this

theorem Copies.mem {α : Type} {k : ℕ} (hk : 0 < k) {X x : List α} (h : Copies k X x) (v : α) : v ∈ X ↔ v ∈ x := by
  rw [← Multiset.mem_coe, h, Multiset.mem_nsmul_of_ne_zero hk.ne', Multiset.mem_coe]

theorem Copies.mean {k : ℕ} (hk : 0 < k) {X x : List ℝ} (h : Copies k X x) : meanO X = meanO x := by
  have hr : (k : ℝ) ≠ 0 := by exact_mod_cast hk.ne'
  unfold meanO
  refine if_congr ?_ rfl ?_
  · rw [← List.length_eq_zero_iff, ← List.length_eq_zero_iff, h.length]
    exact ⟨fun e => (Nat.mul_eq_zero.1 e).resolve_left hk.ne', fun e => by rw [e, Nat.mul_zero]⟩
  · rw [h.sum, h.length]
    push_cast
    rw [mul_div_mul_left _ _ hr]

theorem Copies.var {k : ℕ} (hk : 0 < k) {X x : List ℝ} (h : Copies k X x) : varO X = varO x := by
  unfold varO
  rw [h.mean hk]
  cases meanO x with
  | none => rfl
  | some m => exact (h.map _).mean hk

theorem Copies.min {k : ℕ} (hk : 0 < k) {X x : List ℝ} (h : Copies k X x) : minO X = minO x := by
  ext v
  show minO X = some v ↔ minO x = some v
  rw [minO_eq_some, minO_eq_some]
  simp only [h.mem hk]

theorem Copies.max {k : ℕ} (hk : 0 < k) {X x : List ℝ} (h : Copies k X x) : maxO X = maxO x := by
  ext v
  show maxO X = some v ↔ maxO x = some v
  rw [maxO_eq_some, maxO_eq_some]
  simp only [h.mem hk]

theorem Copies.edges {k : ℕ} (hk : 0 < k) {X x : List ℝ} (h : Copies k X x) (nb : ℕ) : histEdges nb X = histEdges nb x := by
  unfold histEdges
  rw [h.min hk, h.max hk]

theorem Copies.counts {k : ℕ} {X x : List ℝ} (h : Copies k X x) (e : Arr1 ℝ) (b : ℕ) :
    (histCounts e X).get b = k * (histCounts e x).get b := by
  have h' : (X : Multiset ℝ) = k • (x : Multiset ℝ) := h
  have := congrArg Multiset.card (congrArg (Multiset.filter fun v => binOf e v = some b) h')
  rw [Multiset.filter_nsmul, Multiset.card_nsmul, Multiset.filter_coe, Multiset.filter_coe, Multiset.coe_card, Multiset.coe_card] at this
  exact this

theorem divO_copies {k : ℝ} (hk : k ≠ 0) (a b : ℝ) : divO (some (k * a)) (some (k * b)) = divO (some a) (some b) := by
  simp only [divO, Option.bind_eq_bind, Option.bind_some, mul_div_mul_left _ _ hk]
  exact if_congr ⟨fun h => (mul_eq_zero.1 h).resolve_left hk, fun h => by rw [h, mul_zero]⟩ rfl rfl

theorem Copies.standardize {k : ℕ} (hk : 0 < k) {X x : List (Option ℝ)} (h : Copies k X x) : Copies k (standardize X) (standardize x) := by
  have e1 : nanmean X = nanmean x := h.valid.mean hk
  have e2 : nanstd X = nanstd x := congrArg (Option.map Real.sqrt) (h.valid.var hk)
  unfold TS.standardize
  rw [e1, e2]
  exact h.map _

theorem Copies.dist {k : ℕ} (hk : 0 < k) {X x : List (Option ℝ)} (h : Copies k X x) (nb : ℕ) : tsallisDist nb X = tsallisDist nb x := by
  have hr : (k : ℝ) ≠ 0 := by exact_mod_cast hk.ne'
  have c := h.valid
  unfold tsallisDist
  dsimp only
  rw [c.edges hk]
  have key : ∀ e : Arr1 ℝ, (⟨(histCounts e (validVals X)).n, fun b => divO (some ((histCounts e (validVals X)).get b : ℝ))
        (some ((∑ i ∈ range (histCounts e (validVals X)).n, (histCounts e (validVals X)).get i : ℕ) : ℝ))⟩ : Arr1 (Option ℝ)) =
      ⟨(histCounts e (validVals x)).n, fun b => divO (some ((histCounts e (validVals x)).get b : ℝ))
        (some ((∑ i ∈ range (histCounts e (validVals x)).n, (histCounts e (validVals x)).get i : ℕ) : ℝ))⟩ := by
    intro e
    have hn : (histCounts e (validVals X)).n = (histCounts e (validVals x)).n := rfl
    rw [hn]
    congr 1
    funext b
    simp only [c.counts e]
    rw [← mul_sum, Nat.cast_mul, Nat.cast_mul, divO_copies hr]
  simp only [key]

theorem ravel_tiled {α : Type} {p q : ℕ} {a A : Arr2 α} (hA : A.n = p * a.n) (hB : A.m = q * a.m)
    (h : ∀ i < A.n, ∀ j < A.m, A.get i j = a.get (i % a.n) (j % a.m)) : Copies (p * q) A.ravel a.ravel := by
  have e : ∀ b : Arr2 α, (b.ravel : Multiset α) = ∑ i ∈ range b.n, ∑ j ∈ range b.m, {b.get i j} := by
    intro b
    rw [ravel_eq, ← sum_product' (range b.n) (range b.m) fun i j => ({b.get i j} : Multiset α)]
    refine (Multiset.sum_map_singleton _).symm.trans ?_
    rw [Multiset.map_map]
    rfl
  unfold Copies
  rw [e, e, ← sum_tile2 p a.n q a.m fun i j => ({a.get i j} : Multiset α), ← hA, ← hB]
  exact sum_congr rfl fun i hi => sum_congr rfl fun j hj => by rw [h i (mem_range.1 hi) j (mem_range.1 hj)]

/-! ### Tsallis -/

private theorem map_copies {p q : ℕ} (hp : 0 < p) (hq : 0 < q) (junk junk' : ℕ → ℕ → Option ℝ) (lag : ℕ) (img : Arr2 (Option ℝ)) :
    Copies (p * q) (tsallisMap junk' true lag (Spec.tiled p q img)).ravel (tsallisMap junk true lag img).ravel := by
  obtain ⟨n1, m1, g⟩ := C41_periodic junk lag img
  obtain ⟨n1', m1', g'⟩ := C41_periodic junk' lag (Spec.tiled p q img)
  refine ravel_tiled (by rw [n1', n1]; rfl) (by rw [m1', m1]; rfl) fun i hi j hj => ?_
  rw [n1'] at hi
  rw [m1'] at hj
  have hi' : i < p * img.n := hi
  have hj' : j < q * img.m := hj
  have hn : 0 < img.n := Nat.pos_of_ne_zero fun h => by simp [h] at hi'
  have hm : 0 < img.m := Nat.pos_of_ne_zero fun h => by simp [h] at hj'
  rw [n1, m1, g' i hi j hj, g _ (Nat.mod_lt _ hn) _ (Nat.mod_lt _ hm)]
  have x : ∀ u v : ℤ, Spec.periodicExt (Spec.tiled p q img) ((i : ℤ) + u) ((j : ℤ) + v) =
      Spec.periodicExt img (((i % img.n : ℕ) : ℤ) + u) (((j % img.m : ℕ) : ℤ) + v) := fun u v => by
    rw [ext_tile hp hq img hn hm, ext_mod]
  have x0 := x 0 0
  have x1 := x (-lag) 0
  have x2 := x lag 0
  have x3 := x 0 (-lag)
  have x4 := x 0 lag
  simp only [add_zero, ← sub_eq_add_neg] at x0 x1 x2 x3 x4
  unfold Spec.increment
  rw [x0, x1, x2, x3, x4]

/-- **Tsallis.** With periodic boundaries (the default) and a given number of bins the distribution of the increments of a repeated image is the one of a single
period, at every lag. -/
theorem C124_tsallis {p q : ℕ} (hp : 0 < p) (hq : 0 < q) (junk junk' : ℕ → ℕ → Option ℝ) (nb lag : ℕ) (img : Arr2 (Option ℝ)) :
    (makeTsallisAt junk' true (some nb) lag (Spec.tiled p q img)).map Prod.snd = (makeTsallisAt junk true (some nb) lag img).map Prod.snd := by
  have hk : 0 < p * q := Nat.mul_pos hp hq
  have et := ((map_copies hp hq junk junk' lag img).standardize hk).dist hk nb
  unfold makeTsallisAt
  simp only [tsallisBins, et]
  cases tsallisDist nb (standardize (tsallisMap junk true lag img).ravel) <;> rfl

private theorem increments_two (junk : ℕ → ℕ → Option ℝ) : some 1 ∈ (tsallisMap junk true 1 ⟨1, 2, fun _ j => some (if j = 0 then 0 else 2)⟩).ravel ∧
    some (-1) ∈ (tsallisMap junk true 1 ⟨1, 2, fun _ j => some (if j = 0 then 0 else 2)⟩).ravel := by
  constructor <;>
    simp [tsallisMap, rollSum, Arr2.ravel, Arr2.roll0, Arr2.roll1, List.range_succ, addO, subO, divO, rollIx] <;> norm_num

private theorem present (a : Arr2 (Option ℝ)) (h : ∀ i j, (a.get i j).isSome) :
    #{x ∈ range a.n ×ˢ range a.m | (a.get x.1 x.2).isSome} = a.n * a.m := by
  rw [filter_true_of_mem fun x _ => h x.1 x.2, card_product, card_range, card_range]

/-- With the default number of bins, which grows with the number of pixels, the distribution changes: the row 0, 2 gets two bins, and three when shown
three times. -/
theorem C124_tsallis_violated (junk junk' : ℕ → ℕ → Option ℝ) : ∃ (img : Arr2 (Option ℝ)) (r r' : List (Option ℝ) × TsallisDist),
    makeTsallisAt junk true none 1 img = .ok r ∧ makeTsallisAt junk' true none 1 (Spec.tiled 1 3 img) = .ok r' ∧
      r.2.centres.n = 2 ∧ r'.2.centres.n = 3 := by
  obtain ⟨h1, h2⟩ := increments_two junk
  have c := map_copies one_pos three_pos junk junk' 1 ⟨1, 2, fun _ j => some (if j = 0 then 0 else 2)⟩
  have e1 := present ⟨1, 2, fun _ j => some (if j = 0 then 0 else 2)⟩ fun _ _ => rfl
  have e2 := present (Spec.tiled 1 3 ⟨1, 2, fun _ j => some (if j = 0 then 0 else 2)⟩) fun _ _ => rfl
  have s1 : 2 = ⌈Real.sqrt ((1 * 2 : ℕ) : ℝ)⌉₊ := by
    refine ((Nat.ceil_eq_iff two_ne_zero).2 ⟨?_, ?_⟩).symm
    · exact Real.lt_sqrt_of_sq_lt (by norm_num)
    · exact Real.sqrt_le_iff.2 ⟨by norm_num, by norm_num⟩
  have s2 : 3 = ⌈Real.sqrt ((1 * 1 * (3 * 2) : ℕ) : ℝ)⌉₊ := by
    refine ((Nat.ceil_eq_iff three_ne_zero).2 ⟨?_, ?_⟩).symm
    · exact Real.lt_sqrt_of_sq_lt (by norm_num)
    · exact Real.sqrt_le_iff.2 ⟨by norm_num, by norm_num⟩
  obtain ⟨x, d, -, r1, -, -, -, n1, -⟩ := C41_make junk true none 1 _ 1 (-1) (by norm_num) h1 h2 2 two_pos (.inr ⟨rfl, s1.trans (by rw [← e1])⟩)
  obtain ⟨x', d', -, r2, -, -, -, n2, -⟩ := C41_make junk' true none 1 _ 1 (-1) (by norm_num) ((c.mem (by norm_num) _).2 h1) ((c.mem (by norm_num) _).2 h2) 3
    three_pos (.inr ⟨rfl, s2.trans (by rw [e2]; rfl)⟩)
  exact ⟨_, (x, d), (x', d'), r1, r2, n1, n2⟩

/-! ### The hypotheses can be met -/

/-- A radius and a fraction, and a two-pixel map whose distribution exists. -/
example : (0 : ℝ) < 5 ∧ (0 : ℝ) < 0.8 ∧ (0.8 : ℝ) ≤ 1 := by norm_num

example (junk : ℕ → ℕ → Option ℝ) : ∃ (img : Arr2 (Option ℝ)) (r : List (Option ℝ) × TsallisDist),
    makeTsallisAt junk true (some 4) 1 img = .ok r ∧ r.2.centres.n = 4 := by
  obtain ⟨h1, h2⟩ := increments_two junk
  obtain ⟨x, d, -, r1, -, -, -, n1, -⟩ := C41_make junk true (some 4) 1 _ 1 (-1) (by norm_num) h1 h2 4 (by norm_num) (.inl rfl)
  exact ⟨_, (x, d), r1, n1⟩

end TS
