import Verif.Model.GenusInit
import Verif.Props.C18
import Verif.Props.C20
import Verif.Lemmas.L2
import Mathlib.LinearAlgebra.Lagrange
import Mathlib.Data.List.GetD

/-! C85: thresholds of the genus curve and the genus distance. -/

namespace TS
open Finset

namespace Spec

/-- `t` is a `q`-th percentile of the values: with `h = q (n-1) / 100`, at least `⌊h⌋ + 1` values are not above it and at least
`n - ⌈h⌉` values are not below it. -/
def IsPercentile (v : List ℝ) (q t : ℝ) : Prop :=
  ⌊q / 100 * ((v.length : ℝ) - 1)⌋₊ + 1 ≤ v.countP (· ≤ t) ∧ v.length - ⌈q / 100 * ((v.length : ℝ) - 1)⌉₊ ≤ v.countP (t ≤ ·)

/-- `n` values at equal distances from `lo` to `hi`. -/
def Evenly (t : Arr1 ℝ) (n : ℕ) (lo hi : ℝ) : Prop :=
  t.n = n ∧ t.get 0 = lo ∧ (2 ≤ n → t.get (n - 1) = hi) ∧ ∀ k, t.get (k + 1) - t.get k = (hi - lo) / ((n : ℝ) - 1)

/-- What an interpolating cubic spline routine does: strictly increasing abscissae (at least four) are accepted and the result passes
through the points; the result is proportional to the ordinates; other abscissae are refused. -/
structure Interpolates (spl : Spline) : Prop where
  accepts : ∀ xs ys, xs.length = ys.length → 4 ≤ xs.length → xs.Pairwise (· < ·) →
    ∃ f, spl xs ys = .ok f ∧ ∀ k (h : k < xs.length) (h' : k < ys.length), f xs[k] = ys[k]
  scales : ∀ xs ys f c, spl xs ys = .ok f → spl xs (ys.map (c * ·)) = .ok fun x => c * f x
  refuses : ∀ xs ys, ¬ xs.Pairwise (· < ·) → spl xs ys = .error .valueError

end Spec

/-! ### percentiles -/

private theorem sorted_get {s : List ℝ} (hs : s.Pairwise (· ≤ ·)) {i j : ℕ} (hij : i ≤ j) (hj : j < s.length) :
    s.getD i 0 ≤ s.getD j 0 := by
  rw [List.getD_eq_getElem _ _ (by omega), List.getD_eq_getElem _ _ hj]
  rcases Nat.lt_or_ge i j with h | h
  · exact (List.pairwise_iff_getElem.1 hs) i j (by omega) hj h
  · have : i = j := by omega
    subst this
    exact le_rfl

private theorem count_le {s : List ℝ} (hs : s.Pairwise (· ≤ ·)) {i : ℕ} (hi : i < s.length) {t : ℝ} (ht : s.getD i 0 ≤ t) :
    i + 1 ≤ s.countP (· ≤ t) := by
  have h1 : (s.take (i + 1)).countP (· ≤ t) = i + 1 := by
    rw [List.countP_eq_length.2]
    · rw [List.length_take]; omega
    · intro a ha
      obtain ⟨k, hk, rfl⟩ := List.mem_iff_getElem.1 ha
      rw [List.length_take] at hk
      rw [List.getElem_take]
      have := sorted_get hs (i := k) (j := i) (by omega) hi
      rw [List.getD_eq_getElem _ _ (by omega)] at this
      simpa using this.trans ht
  rw [← h1]
  exact (List.take_sublist _ _).countP_le

private theorem count_ge {s : List ℝ} (hs : s.Pairwise (· ≤ ·)) {i : ℕ} (hi : i < s.length) {t : ℝ} (ht : t ≤ s.getD i 0) :
    s.length - i ≤ s.countP (t ≤ ·) := by
  have h1 : (s.drop i).countP (t ≤ ·) = s.length - i := by
    rw [List.countP_eq_length.2]
    · rw [List.length_drop]
    · intro a ha
      obtain ⟨k, hk, rfl⟩ := List.mem_iff_getElem.1 ha
      rw [List.length_drop] at hk
      rw [List.getElem_drop]
      have := sorted_get hs (i := i) (j := i + k) (by omega) (by omega)
      rw [List.getD_eq_getElem _ _ (by omega : i + k < s.length)] at this
      simpa using ht.trans this
  rw [← h1]
  exact (List.drop_sublist _ _).countP_le

/-- The interpolated order statistic at position `h`. -/
private noncomputable def orderStat (s : List ℝ) (h : ℝ) : ℝ :=
  s.getD ⌊h⌋₊ 0 + (h - ⌊h⌋₊) * (s.getD (min (⌊h⌋₊ + 1) (s.length - 1)) 0 - s.getD ⌊h⌋₊ 0)

private theorem pct_eq {x : List (Option ℝ)} {q t : ℝ} (h : nanpercentile x q = .ok t) :
    0 ≤ q ∧ q ≤ 100 ∧ (validVals x).insertionSort (· ≤ ·) ≠ [] ∧
      t = orderStat ((validVals x).insertionSort (· ≤ ·)) (q / 100 * ((((validVals x).insertionSort (· ≤ ·)).length : ℝ) - 1)) := by
  simp only [nanpercentile] at h
  split_ifs at h with h1 h2
  simp only [not_or, not_lt] at h1
  cases h
  exact ⟨h1.1, h1.2, h2, rfl⟩

private theorem pos_bounds {n : ℕ} (hn : 0 < n) {q : ℝ} (h0 : 0 ≤ q) (h1 : q ≤ 100) :
    0 ≤ q / 100 * ((n : ℝ) - 1) ∧ q / 100 * ((n : ℝ) - 1) ≤ (n : ℝ) - 1 := by
  have hn' : (1 : ℝ) ≤ n := by exact_mod_cast hn
  refine ⟨mul_nonneg (by positivity) (by linarith), ?_⟩
  have : q / 100 ≤ 1 := by rw [div_le_one (by norm_num)]; exact h1
  nlinarith

private theorem floor_lt {n : ℕ} (hn : 0 < n) {h : ℝ} (h0 : 0 ≤ h) (h1 : h ≤ (n : ℝ) - 1) : ⌊h⌋₊ < n := by
  rw [Nat.floor_lt h0]
  linarith

/-- The interpolated value lies between its neighbours. -/
private theorem orderStat_between {s : List ℝ} (hs : s.Pairwise (· ≤ ·)) (hne : s ≠ []) {h : ℝ} (h0 : 0 ≤ h)
    (h1 : h ≤ (s.length : ℝ) - 1) : s.getD ⌊h⌋₊ 0 ≤ orderStat s h ∧ orderStat s h ≤ s.getD ⌈h⌉₊ 0 ∧ ⌈h⌉₊ < s.length := by
  have hn : 0 < s.length := List.length_pos_iff.2 hne
  have hf := floor_lt hn h0 h1
  have hfl : (⌊h⌋₊ : ℝ) ≤ h := Nat.floor_le h0
  have hfl2 : h < ⌊h⌋₊ + 1 := Nat.lt_floor_add_one h
  have hceil : ⌈h⌉₊ < s.length := by
    have : ⌈h⌉₊ ≤ s.length - 1 := by
      rw [Nat.ceil_le, Nat.cast_sub (by omega)]
      simpa using h1
    omega
  have hstep : s.getD ⌊h⌋₊ 0 ≤ s.getD (min (⌊h⌋₊ + 1) (s.length - 1)) 0 := sorted_get hs (by omega) (by omega)
  refine ⟨?_, ?_, hceil⟩
  · unfold orderStat
    nlinarith
  · unfold orderStat
    rcases eq_or_lt_of_le hfl with he | he
    · have hc : ⌈h⌉₊ = ⌊h⌋₊ := by
        conv_lhs => rw [← he]
        exact Nat.ceil_natCast _
      rw [hc]
      have : h - ⌊h⌋₊ = 0 := by linarith
      rw [this]
      simp
    · have hc : ⌈h⌉₊ = ⌊h⌋₊ + 1 := by
        apply le_antisymm
        · exact Nat.ceil_le_floor_add_one h
        · have : (⌊h⌋₊ : ℝ) < (⌈h⌉₊ : ℝ) := he.trans_le (Nat.le_ceil h)
          exact_mod_cast this
      have hm : min (⌊h⌋₊ + 1) (s.length - 1) = ⌊h⌋₊ + 1 := by omega
      rw [hm] at hstep ⊢
      rw [hc]
      nlinarith

/-- `lowdens_percent` and `highdens_percent`: the value used is a percentile of the valid pixels and lies in their range. -/
theorem C85_percentile {x : List (Option ℝ)} {q t : ℝ} (h : nanpercentile x q = .ok t) :
    Spec.IsPercentile (validVals x) q t ∧ (∃ v ∈ validVals x, v ≤ t) ∧ ∃ v ∈ validVals x, t ≤ v := by
  obtain ⟨h0, h1, hne, rfl⟩ := pct_eq h
  set s := (validVals x).insertionSort (· ≤ ·) with hs
  have hperm : s.Perm (validVals x) := List.perm_insertionSort _ _
  have hsort : s.Pairwise (· ≤ ·) := List.pairwise_insertionSort _ _
  have hn : 0 < s.length := List.length_pos_iff.2 hne
  obtain ⟨p0, p1⟩ := pos_bounds hn h0 h1
  obtain ⟨b1, b2, b3⟩ := orderStat_between hsort hne p0 p1
  have hfl := floor_lt hn p0 p1
  refine ⟨⟨?_, ?_⟩, ?_, ?_⟩
  · rw [← hperm.countP_eq, ← hperm.length_eq]
    exact count_le hsort hfl b1
  · rw [← hperm.countP_eq, ← hperm.length_eq]
    exact count_ge hsort b3 b2
  · refine ⟨_, hperm.mem_iff.1 ?_, b1⟩
    rw [List.getD_eq_getElem _ _ hfl]
    exact List.getElem_mem _
  · refine ⟨_, hperm.mem_iff.1 ?_, b2⟩
    rw [List.getD_eq_getElem _ _ b3]
    exact List.getElem_mem _

/-- A larger percentage gives a larger value, so that `lowdens_percent ≤ highdens_percent` gives increasing thresholds. -/
theorem C85_percentile_mono {x : List (Option ℝ)} {q q' t t' : ℝ} (h : nanpercentile x q = .ok t) (h' : nanpercentile x q' = .ok t')
    (hq : q ≤ q') : t ≤ t' := by
  obtain ⟨h0, h1, hne, rfl⟩ := pct_eq h
  obtain ⟨h0', h1', -, rfl⟩ := pct_eq h'
  set s := (validVals x).insertionSort (· ≤ ·) with hs
  have hsort : s.Pairwise (· ≤ ·) := List.pairwise_insertionSort _ _
  have hn : 0 < s.length := List.length_pos_iff.2 hne
  obtain ⟨p0, p1⟩ := pos_bounds hn h0 h1
  obtain ⟨p0', p1'⟩ := pos_bounds hn h0' h1'
  have hle : q / 100 * ((s.length : ℝ) - 1) ≤ q' / 100 * ((s.length : ℝ) - 1) := by
    have : (1 : ℝ) ≤ s.length := by exact_mod_cast hn
    have : (0 : ℝ) ≤ s.length - 1 := by linarith
    gcongr
  obtain ⟨b1, b2, b3⟩ := orderStat_between hsort hne p0 p1
  obtain ⟨c1, c2, c3⟩ := orderStat_between hsort hne p0' p1'
  set u := q / 100 * ((s.length : ℝ) - 1)
  set u' := q' / 100 * ((s.length : ℝ) - 1)
  rcases Nat.lt_or_ge ⌊u⌋₊ ⌊u'⌋₊ with hlt | hge
  · refine b2.trans (le_trans (sorted_get hsort ?_ (floor_lt hn p0' p1')) c1)
    exact (Nat.ceil_le_floor_add_one u).trans hlt
  · have heq : ⌊u⌋₊ = ⌊u'⌋₊ := le_antisymm (Nat.floor_mono hle) hge
    unfold orderStat
    rw [heq]
    have hf' := floor_lt hn p0' p1'
    have hstep : s.getD ⌊u'⌋₊ 0 ≤ s.getD (min (⌊u'⌋₊ + 1) (s.length - 1)) 0 := sorted_get hsort (by omega) (by omega)
    nlinarith

/-- The percentages 0 and 100, which the code treats separately, are the minimum and the maximum. -/
theorem C85_percentile_ends (x : List (Option ℝ)) :
    nanpercentile x 0 = orNan (nanmin x) ∧ nanpercentile x 100 = orNan (nanmax x) := by
  have hperm : ((validVals x).insertionSort (· ≤ ·)).Perm (validVals x) := List.perm_insertionSort _ _
  have hsort : ((validVals x).insertionSort (· ≤ ·)).Pairwise (· ≤ ·) := List.pairwise_insertionSort _ _
  by_cases hv : validVals x = []
  · simp [nanpercentile, nanmin, nanmax, hv, minO, maxO, orNan]
  set s := (validVals x).insertionSort (· ≤ ·) with hs
  have hne : s ≠ [] := by
    intro h
    apply hv
    have := hperm.length_eq
    rw [h] at this
    exact List.length_eq_zero_iff.1 this.symm
  have hn : 0 < s.length := List.length_pos_iff.2 hne
  have hmin : nanmin x = some (s.getD 0 0) := by
    rw [nanmin, minO_eq_some]
    constructor
    · apply hperm.mem_iff.1
      rw [List.getD_eq_getElem _ _ hn]
      exact List.getElem_mem _
    · intro t ht
      obtain ⟨k, hk, rfl⟩ := List.mem_iff_getElem.1 (hperm.mem_iff.2 ht)
      have := sorted_get hsort (Nat.zero_le k) hk
      rwa [List.getD_eq_getElem _ _ hk] at this
  have hmax : nanmax x = some (s.getD (s.length - 1) 0) := by
    rw [nanmax, maxO_eq_some]
    constructor
    · apply hperm.mem_iff.1
      rw [List.getD_eq_getElem _ _ (by omega)]
      exact List.getElem_mem _
    · intro t ht
      obtain ⟨k, hk, rfl⟩ := List.mem_iff_getElem.1 (hperm.mem_iff.2 ht)
      have := sorted_get hsort (i := k) (j := s.length - 1) (by omega) (by omega)
      rwa [List.getD_eq_getElem _ _ hk] at this
  rw [hmin, hmax]
  constructor
  · simp only [nanpercentile, ← hs, hne, if_false, orNan]
    norm_num
  · simp only [nanpercentile, ← hs, hne, if_false, orNan]
    have h1 : (100 : ℝ) / 100 * ((s.length : ℝ) - 1) = ((s.length - 1 : ℕ) : ℝ) := by
      rw [Nat.cast_sub hn]
      norm_num
    rw [h1, Nat.floor_natCast]
    norm_num

/-! ### thresholds -/

private theorem linspace_evenly (a b : ℝ) (n : ℕ) : Spec.Evenly (linspace a b n) n a b := by
  refine ⟨rfl, linspace_first a b n, fun h => linspace_last a b h, ?_⟩
  intro k
  simp only [linspace]
  push_cast
  ring

/-- Thresholds without limits: `numpts` values at equal distances from one percentile of the image to the other (the minimum and the
maximum by default), in the unit of the image. -/
theorem C85_thresholds {x : List (Option ℝ)} {du : Option BUnit} (hd : ∀ d, du = some d → d.fac ≠ 0) {lo hi : ℝ} {num : ℕ} {t : Arr1 ℝ}
    {u : Option BUnit} (h : rangeThresholds x du { lowPct := lo, highPct := hi, numpts := num } = .ok (t, u)) :
    u = du ∧ ∃ a b, nanpercentile x lo = .ok a ∧ nanpercentile x hi = .ok b ∧ Spec.Evenly t num a b := by
  have hmin : defaultMin x lo = nanpercentile x lo := by
    unfold defaultMin
    split_ifs with h0
    · rw [h0, (C85_percentile_ends x).1]
    · rfl
  have hmax : defaultMax x hi = nanpercentile x hi := by
    unfold defaultMax
    split_ifs with h0
    · rw [h0, (C85_percentile_ends x).2]
    · rfl
  simp only [rangeThresholds, rawMin, rawMax, hmin, hmax, bind, Except.bind] at h
  cases ha : nanpercentile x lo with
  | error e => rw [ha] at h; simp [Except.map] at h
  | ok a =>
    rw [ha] at h
    cases hb : nanpercentile x hi with
    | error e =>
      rw [hb] at h
      cases du with
      | none => simp [Except.map, checkMin] at h
      | some d => simp [Except.map, checkMin, toUnit] at h
    | ok b =>
      rw [hb] at h
      cases du with
      | none =>
        simp only [Except.map, checkMin, checkMax, brightLinspace, Except.ok.injEq, Prod.mk.injEq] at h
        obtain ⟨rfl, rfl⟩ := h
        exact ⟨rfl, a, b, rfl, rfl, linspace_evenly a b num⟩
      | some d =>
        have hf := hd d rfl
        simp only [Except.map, checkMin, checkMax, toUnit, ne_eq, not_true, if_false, brightLinspace, Except.ok.injEq,
          Prod.mk.injEq] at h
        obtain ⟨rfl, rfl⟩ := h
        refine ⟨rfl, a, b, rfl, rfl, ?_⟩
        rw [mul_div_cancel_right₀ _ hf, mul_div_cancel_right₀ _ hf, mul_div_cancel_right₀ _ hf]
        exact linspace_evenly a b num

/-- Without limits every threshold lies in the range of the valid pixels. -/
theorem C85_thresholds_inside {x : List (Option ℝ)} {du : Option BUnit} (hd : ∀ d, du = some d → d.fac ≠ 0) {lo hi : ℝ} {num : ℕ}
    (hnum : 2 ≤ num) {t : Arr1 ℝ} {u : Option BUnit}
    (h : rangeThresholds x du { lowPct := lo, highPct := hi, numpts := num } = .ok (t, u)) {k : ℕ} (hk : k < num) :
    (∃ v ∈ validVals x, v ≤ t.get k) ∧ ∃ v ∈ validVals x, t.get k ≤ v := by
  obtain ⟨-, a, b, ha, hb, e1, e2, e3, e4⟩ := C85_thresholds hd h
  obtain ⟨-, ⟨v1, m1, l1⟩, ⟨v2, m2, l2⟩⟩ := C85_percentile ha
  obtain ⟨-, ⟨w1, n1, k1⟩, ⟨w2, n2, k2⟩⟩ := C85_percentile hb
  have hval : ∀ j : ℕ, t.get j = a + j * ((b - a) / ((num : ℝ) - 1)) := by
    intro j
    induction j with
    | zero => simp [e2]
    | succ j ih =>
      have := e4 j
      push_cast
      linarith
  have hn1 : (0 : ℝ) < (num : ℝ) - 1 := by
    have : (2 : ℝ) ≤ num := by exact_mod_cast hnum
    linarith
  have hfrac : t.get k = a + ((k : ℝ) / ((num : ℝ) - 1)) * (b - a) := by
    rw [hval]
    field_simp
  have hk0 : 0 ≤ (k : ℝ) / ((num : ℝ) - 1) := by positivity
  have hk1 : (k : ℝ) / ((num : ℝ) - 1) ≤ 1 := by
    rw [div_le_one hn1]
    have : (k : ℝ) + 1 ≤ num := by exact_mod_cast hk
    linarith
  rw [hfrac]
  set r := (k : ℝ) / ((num : ℝ) - 1)
  rcases le_total a b with hab | hab
  · exact ⟨⟨v1, m1, by nlinarith⟩, ⟨w2, n2, by nlinarith⟩⟩
  · exact ⟨⟨w1, n1, by nlinarith⟩, ⟨v2, m2, by nlinarith⟩⟩

/-- A limit given in other units of the same kind gives the same thresholds, in the unit of the image. -/
theorem C85_units {x : List (Option ℝ)} {d : BUnit} {o : ThreshArgs} {v v' : ℝ} {u u' : BUnit} (hu : u.dim = d.dim) (hu' : u'.dim = d.dim)
    (he : v * u.fac = v' * u'.fac) :
    rangeThresholds x (some d) { o with minValue := some ⟨v, some u⟩ } = rangeThresholds x (some d) { o with minValue := some ⟨v', some u'⟩ } ∧
    rangeThresholds x (some d) { o with maxValue := some ⟨v, some u⟩ } = rangeThresholds x (some d) { o with maxValue := some ⟨v', some u'⟩ } := by
  constructor <;> simp only [rangeThresholds, rawMin, rawMax, checkMin, checkMax, toUnit, hu, hu', he, bind, Except.bind]

/-- Limits in the unit of the image are the ends of the thresholds. -/
theorem C85_limits {x : List (Option ℝ)} {d : BUnit} (hd : d.fac ≠ 0) {o : ThreshArgs} {a b : ℝ} :
    ∃ t, rangeThresholds x (some d) { o with minValue := some ⟨a, some d⟩, maxValue := some ⟨b, some d⟩ } = .ok (t, some d) ∧
      Spec.Evenly t o.numpts a b := by
  refine ⟨linspace a b o.numpts, ?_, linspace_evenly _ _ _⟩
  simp only [rangeThresholds, rawMin, rawMax, checkMin, checkMax, toUnit, ne_eq, not_true, if_false, bind, Except.bind, brightLinspace]
  rw [mul_div_cancel_right₀ _ hd, mul_div_cancel_right₀ _ hd, mul_div_cancel_right₀ _ hd]

/-- Limits without a unit on an image with a unit, or of another kind, are refused. -/
theorem C85_unit_errors {x : List (Option ℝ)} {d : BUnit} {o : ThreshArgs} {v : ℝ} {u : BUnit} (hu : u.dim ≠ d.dim) :
    rangeThresholds x (some d) { o with minValue := some ⟨v, none⟩ } = .error .typeError ∧
    rangeThresholds x (some d) { o with minValue := some ⟨v, some u⟩ } = .error .unitsError ∧
    (∀ t, rangeThresholds x (some d) { o with maxValue := some ⟨v, some u⟩ } ≠ .ok t) ∧
    (v ≠ 0 → d.dim ≠ 0 → ∀ t, rangeThresholds x (some d) { o with maxValue := some ⟨v, none⟩ } ≠ .ok t) := by
  refine ⟨rfl, ?_, ?_, ?_⟩
  · simp [rangeThresholds, rawMin, checkMin, toUnit, hu, bind, Except.bind]
  · intro t h
    simp only [rangeThresholds, bind, Except.bind] at h
    split at h
    · cases h
    · split at h
      · cases h
      · simp [rawMax, checkMax, toUnit, hu] at h
  · intro hv hdim t h
    simp only [rangeThresholds, bind, Except.bind] at h
    split at h
    · cases h
    · split at h
      · cases h
      · rename_i b hb
        have hunit : b.unit = some d := by
          unfold checkMin at hb
          split at hb
          · rename_i hh; cases hh
          · cases hb
          · rename_i d' u' hh hh'
            cases hh
            unfold toUnit at hb
            split_ifs at hb
            cases hb
            rfl
        simp only [rawMax, checkMax, brightLinspace, hunit, plainIn, hv, hdim, if_false, Except.map] at h
        cases h

/-- The check of the upper limit is skipped when it has no unit: a plain 0 is accepted as `max_value` although it is refused as
`min_value`. -/
theorem C85_max_unit_violated {x : List (Option ℝ)} {d : BUnit} (hd : d.fac ≠ 0) (a : ℝ) (o : ThreshArgs) :
    (∃ t, rangeThresholds x (some d) { o with minValue := some ⟨a, some d⟩, maxValue := some ⟨0, none⟩ } = .ok (t, some d)) ∧
    rangeThresholds x (some d) { o with minValue := some ⟨0, none⟩ } = .error .typeError := by
  refine ⟨⟨linspace a 0 o.numpts, ?_⟩, rfl⟩
  simp only [rangeThresholds, rawMin, rawMax, checkMin, checkMax, toUnit, ne_eq, not_true, if_false, bind, Except.bind, brightLinspace,
    plainIn, if_true, Except.map]
  rw [mul_div_cancel_right₀ _ hd]

/-- The documented override does not take place: with `min_value` (`max_value`) given the percentage is never looked at. -/
theorem C85_override_violated (x : List (Option ℝ)) (du : Option BUnit) (o : ThreshArgs) (b : Bright) (p p' : ℝ) :
    rangeThresholds x du { o with minValue := some b, lowPct := p } = rangeThresholds x du { o with minValue := some b, lowPct := p' } ∧
    rangeThresholds x du { o with maxValue := some b, highPct := p } = rangeThresholds x du { o with maxValue := some b, highPct := p' } :=
  ⟨rfl, rfl⟩

/-- For example: pixels 0 … 4, `min_value=0`, `lowdens_percent=50`.  The percentile is 2, the first threshold is 0. -/
example : (∃ t, rangeThresholds [some 0, some 1, some 2, some 3, some 4] none { minValue := some ⟨0, none⟩, lowPct := 50 } = .ok (t, none) ∧
    t.get 0 = 0) ∧ nanpercentile [some 0, some 1, some 2, some 3, some 4] 50 = .ok 2 := by
  have hs : (validVals [some 0, some 1, some 2, some 3, some 4]).insertionSort (· ≤ ·) = [0, 1, 2, 3, 4] := by
    rw [List.Pairwise.insertionSort_eq]
    · rfl
    · simp [validVals]
      norm_num
  have hmax : nanmax [some 0, some 1, some 2, some 3, some 4] = some 4 := by
    rw [nanmax, maxO_eq_some]
    simp [validVals]
    norm_num
  constructor
  · refine ⟨linspace 0 4 100, ?_, linspace_first _ _ _⟩
    simp [rangeThresholds, rawMin, rawMax, checkMin, checkMax, defaultMax, hmax, orNan, Except.map, bind, Except.bind, brightLinspace]
  · simp only [nanpercentile, hs]
    rw [if_neg (by norm_num), if_neg (by simp)]
    norm_num

/-- Radii with which smoothing is possible are kept; anything below one pixel or above half the smaller side is refused. -/
theorem C85_radii (m : ℕ) (v : List ℝ) :
    ((∀ r ∈ v, 1 ≤ r ∧ r ≤ 0.5 * m) → initRadii true m (.array v) = .ok (v.map some)) ∧
    ((∃ r ∈ v, r < 1 ∨ 0.5 * m < r) → initRadii true m (.array v) = .error .valueError) := by
  constructor
  · intro h
    have h1 : v.any (fun r => decide (r < 1)) = false := by
      rw [List.any_eq_false]
      intro r hr
      simpa using (h r hr).1
    have h2 : v.any (fun r => decide (r > 0.5 * (m : ℝ))) = false := by
      rw [List.any_eq_false]
      intro r hr
      have := (h r hr).2
      simpa using this
    simp [initRadii, setSmoothingRadii, h1, h2]
  · rintro ⟨r, hr, hlt | hgt⟩
    · have h1 : v.any (fun r => decide (r < 1)) = true := List.any_eq_true.2 ⟨r, hr, by simpa using hlt⟩
      simp [initRadii, setSmoothingRadii, h1]
    · have h2 : v.any (fun r => decide (r > 0.5 * (m : ℝ))) = true := List.any_eq_true.2 ⟨r, hr, by simpa using hgt⟩
      simp only [initRadii, setSmoothingRadii, h2]
      split_ifs <;> simp_all

/-! ### given thresholds -/

/-- Thresholds given by the user are the ones used, as the same brightnesses in the unit of the image, whatever the other threshold options. -/
theorem C85_given {data : Arr2 (Option ℝ)} {du tu : Option BUnit} (hd : ∀ d, du = some d → d.fac ≠ 0) {o : ThreshArgs} {t : Arr1 ℝ}
    {enable : Bool} {r : RadiiArg} {g : GenusObj} (h : genusInit data du o (some (t, tu)) enable r = .ok g) :
    g.thresholds.n = t.n ∧ (du = none → g.unit = tu ∧ ∀ k, g.thresholds.get k = t.get k) ∧
      ∀ d, du = some d → g.unit = some d ∧ ∃ u, tu = some u ∧ u.dim = d.dim ∧ ∀ k, g.thresholds.get k * d.fac = t.get k * u.fac := by
  simp only [genusInit, bind, Except.bind, pure, Except.pure] at h
  cases hq : givenThresholds du t tu with
  | error e => simp [hq] at h
  | ok q =>
    simp only [hq] at h
    split at h
    · cases h
    cases h
    unfold givenThresholds at hq
    cases du with
    | none => cases hq; exact ⟨rfl, fun _ => ⟨rfl, fun _ => rfl⟩, fun d hd => by cases hd⟩
    | some d =>
      cases tu with
      | none => cases hq
      | some u =>
        simp only at hq
        split_ifs at hq with hdim
        cases hq
        refine ⟨rfl, fun hh => (nomatch hh), ?_⟩
        intro d' hd'
        cases hd'
        refine ⟨rfl, u, rfl, not_not.1 hdim, fun k => ?_⟩
        have := hd d rfl
        simp only [Arr1.map]
        field_simp

/-- Given thresholds without a unit on an image with a unit, or of another kind, are refused. -/
theorem C85_given_errors (data : Arr2 (Option ℝ)) (d u : BUnit) (o : ThreshArgs) (t : Arr1 ℝ) (enable : Bool) (r : RadiiArg)
    (hu : u.dim ≠ d.dim) : genusInit data (some d) o (some (t, none)) enable r = .error .typeError ∧
      genusInit data (some d) o (some (t, some u)) enable r = .error .unitsError := by
  refine ⟨rfl, ?_⟩
  simp [genusInit, givenThresholds, hu, bind, Except.bind]

example : ∃ g, genusInit ⟨4, 4, fun i j => some (i + j)⟩ (some ⟨1, 2⟩) {} (some (⟨3, fun k => k⟩, some ⟨1, 6⟩)) true (.array [1]) = .ok g ∧
    g.thresholds.get 1 = 3 := by
  refine ⟨⟨⟨4, 4, fun i j => some (i + j)⟩, ⟨3, fun k => k * 6 / 2⟩, some ⟨1, 2⟩, [some 1]⟩, ?_, by norm_num⟩
  have h : initRadii true (min 4 4) (.array [1]) = .ok [some 1] := by
    simpa using (C85_radii 4 [1]).1 (by intro r hr; simp at hr; subst hr; norm_num)
  simp only [genusInit, givenThresholds, bind, Except.bind, pure, Except.pure, h]
  rfl

/-! ### smoothing radii -/

/-- Without `smoothing_radii` a single radius of one pixel is used (documented: five, up to a tenth of the smaller side); images less
than two pixels across are refused. -/
theorem C85_default_radii_violated (m : ℕ) :
    (2 ≤ m → initRadii true m .default = .ok [some 1]) ∧ (m < 2 → initRadii true m .default = .error .valueError) := by
  constructor
  · intro h
    have h2 : (2 : ℝ) ≤ m := by exact_mod_cast h
    have : ¬ ((1 : ℝ) > 0.5 * m) := by norm_num; linarith
    simp only [initRadii, setSmoothingRadii]
    simp [this]
  · intro h
    have h2 : (m : ℝ) ≤ 1 := by exact_mod_cast (by omega : m ≤ 1)
    have : (1 : ℝ) > 0.5 * m := by norm_num; linarith
    simp only [initRadii, setSmoothingRadii]
    simp [this]

/-- `enable_smoothing=False`: the curve is that of the image itself, whatever the radii. -/
theorem C85_no_smoothing {data : Arr2 (Option ℝ)} {du : Option BUnit} {o : ThreshArgs} {given : Option (Arr1 ℝ × Option BUnit)}
    {r : RadiiArg} {g : GenusObj} (h : genusInit data du o given false r = .ok g)
    (smooth : ℝ → Arr2 (Option ℝ) → Arr2 (Option ℝ)) (c : CurveArgs) :
    g.curves smooth c = [(List.range g.thresholds.n).map fun k => genusValue data (g.thresholds.get k) c.removal c.minSize c.conn] := by
  simp only [genusInit, initRadii, bind, Except.bind, pure, Except.pure, Bool.not_false, if_true] at h
  cases given with
  | none =>
    cases hq : rangeThresholds (flat2 data) du o with
    | error e => simp [hq] at h
    | ok q =>
      simp only [hq, Except.ok.injEq] at h
      subst h
      simp [GenusObj.curves, genusStats, List.map_map, Function.comp_def]
  | some t =>
    cases hq : givenThresholds du t.1 t.2 with
    | error e => simp [hq] at h
    | ok q =>
      simp only [hq, Except.ok.injEq] at h
      subst h
      simp [GenusObj.curves, genusStats, List.map_map, Function.comp_def]

/-- A list of radii, as documented for `Genus_Distance`, always raises. -/
theorem C85_list_violated (spl : Spline) (smooth : ℝ → Arr2 (Option ℝ) → Arr2 (Option ℝ)) (img1 img2 : Arr2 (Option ℝ)) (w1 w2 : WcsScales)
    (tol : ℝ) (o : GenusDistArgs) (v : List ℝ) (c1 c2 : CurveArgs) (d : ℝ) :
    genusDistance spl smooth img1 img2 w1 w2 tol { o with radii := .list v } c1 c2 ≠ .ok d := by
  intro h
  simp only [genusDistance, bind, Except.bind] at h
  split at h
  · cases h
  · rename_i g hg
    simp only [distGenus, genusInit, initRadii, bind, Except.bind, Bool.not_true] at hg
    split at hg
    · cases hg
    split at hg
    · cases hg
    split at hg
    · cases hg
    split at hg
    · cases hg
    split at hg <;> simp at hg

/-! ### the distance -/

private theorem getElem_range_map (t : Arr1 ℝ) (k : ℕ) (h : k < ((List.range t.n).map t.get).length) :
    ((List.range t.n).map t.get)[k] = t.get k := by simp

private theorem points_comm (t1 t2 : Arr1 ℝ) {p : Arr1 ℝ} (h : genusPoints t1 t2 = .ok p) : genusPoints t2 t1 = .ok p := by
  simp only [genusPoints, orNan, bind, Except.bind, pure, Except.pure] at h ⊢
  cases h1 : minO ((List.range t1.n).map t1.get) <;> cases h2 : minO ((List.range t2.n).map t2.get) <;>
    cases h3 : maxO ((List.range t1.n).map t1.get) <;> cases h4 : maxO ((List.range t2.n).map t2.get) <;>
    simp only [h1, h2, h3, h4, reduceCtorEq] at h ⊢
  simp only [Except.ok.injEq] at h ⊢
  rw [← h, max_comm, min_comm, Nat.add_comm t2.n]

private theorem normAt_nonneg (p : Arr1 ℝ) (f g : ℝ → ℝ) : 0 ≤ normAt p f g := Real.sqrt_nonneg _

private theorem dist_parts {spl : Spline} {s : ℝ} {g1 g2 : GenusCurve} {d : ℝ} (h : genusDist spl s g1 g2 = .ok d) :
    ∃ p f1 f2, genusPoints g1.thr g2.thr = .ok p ∧
      spl ((List.range g1.thr.n).map g1.thr.get) (g1.perArea ((g1.size : ℝ) / s)) = .ok f1 ∧
      spl ((List.range g2.thr.n).map g2.thr.get) (g2.perArea (g2.size : ℝ)) = .ok f2 ∧ d = normAt p f1 f2 := by
  simp only [genusDist, bind, Except.bind, pure, Except.pure] at h
  split at h
  · cases h
  · rename_i p hp
    split at h
    · cases h
    · rename_i f1 h1
      split at h
      · cases h
      · rename_i f2 h2
        cases h
        exact ⟨p, f1, f2, hp, h1, h2, rfl⟩

private theorem dist_mk {spl : Spline} {s : ℝ} {g1 g2 : GenusCurve} {p : Arr1 ℝ} {f1 f2 : ℝ → ℝ} (hp : genusPoints g1.thr g2.thr = .ok p)
    (h1 : spl ((List.range g1.thr.n).map g1.thr.get) (g1.perArea ((g1.size : ℝ) / s)) = .ok f1)
    (h2 : spl ((List.range g2.thr.n).map g2.thr.get) (g2.perArea (g2.size : ℝ)) = .ok f2) :
    genusDist spl s g1 g2 = .ok (normAt p f1 f2) := by
  simp only [genusDist, hp, h1, h2, bind, Except.bind, pure, Except.pure]

/-- The distance is never negative. -/
theorem C85_nonneg {spl : Spline} {s : ℝ} {g1 g2 : GenusCurve} {d : ℝ} (h : genusDist spl s g1 g2 = .ok d) : 0 ≤ d := by
  obtain ⟨p, f1, f2, -, -, -, rfl⟩ := dist_parts h
  exact normAt_nonneg _ _ _

/-- What the distance is, with one percentage per image: each standardised image gets 100 thresholds between its own percentiles, its
genus at each threshold is divided by its number of pixels (for the first image also by the ratio of the pixel scales), and the
distance is the norm of the difference of the splines through these points. -/
theorem C85_value {spl : Spline} {smooth : ℝ → Arr2 (Option ℝ) → Arr2 (Option ℝ)} {img1 img2 : Arr2 (Option ℝ)} {w1 w2 : WcsScales}
    {tol r l1 l2 h1 h2 d : ℝ} {c1 c2 : CurveArgs}
    (h : genusDistance spl smooth img1 img2 w1 w2 tol { radii := .array [r], lowPct := .each [l1, l2], highPct := .each [h1, h2] } c1 c2
      = .ok d) :
    ∃ (a1 b1 a2 b2 scale : ℝ) (t1 t2 p : Arr1 ℝ) (f1 f2 : ℝ → ℝ),
      nanpercentile (flat2 (standardizeImg img1)) l1 = .ok a1 ∧ nanpercentile (flat2 (standardizeImg img1)) h1 = .ok b1 ∧
      nanpercentile (flat2 (standardizeImg img2)) l2 = .ok a2 ∧ nanpercentile (flat2 (standardizeImg img2)) h2 = .ok b2 ∧
      Spec.Evenly t1 100 a1 b1 ∧ Spec.Evenly t2 100 a2 b2 ∧ commonScale w1 w2 tol = .ok scale ∧ genusPoints t1 t2 = .ok p ∧
      spl ((List.range 100).map t1.get) ((List.range 100).map fun k =>
        (genusValue (smooth r (standardizeImg img1)) (t1.get k) c1.removal c1.minSize c1.conn : ℝ) / ((img1.n * img1.m : ℝ) / scale)) = .ok f1 ∧
      spl ((List.range 100).map t2.get) ((List.range 100).map fun k =>
        (genusValue (smooth r (standardizeImg img2)) (t2.get k) c2.removal c2.minSize c2.conn : ℝ) / (img2.n * img2.m : ℝ)) = .ok f2 ∧
      d = Real.sqrt (∑ k ∈ range p.n, (f1 (p.get k) - f2 (p.get k)) ^ 2) := by
  have obj : ∀ (img : Arr2 (Option ℝ)) (k : ℕ) (l hh : ℝ) (g : GenusObj), [l1, l2][k]? = some l → [h1, h2][k]? = some hh →
      distGenus img { radii := .array [r], lowPct := .each [l1, l2], highPct := .each [h1, h2] } k = .ok g →
      ∃ a b, nanpercentile (flat2 (standardizeImg img)) l = .ok a ∧ nanpercentile (flat2 (standardizeImg img)) hh = .ok b ∧
        Spec.Evenly g.thresholds 100 a b ∧ g.data = standardizeImg img ∧ g.radii = [some r] := by
    intro img k l hh g e1 e2 hg
    simp only [distGenus, PairArg.get, e1, e2, genusInit, bind, Except.bind, pure, Except.pure] at hg
    split at hg
    · cases hg
    · rename_i t ht
      split at hg
      · cases hg
      · rename_i rad hrad
        cases hg
        obtain ⟨t, u⟩ := t
        obtain ⟨-, a, b, ha, hb, hev⟩ := C85_thresholds (du := none) (by simp) ht
        refine ⟨a, b, ha, hb, hev, rfl, ?_⟩
        show rad = _
        have hr := C85_radii (min (standardizeImg img).n (standardizeImg img).m) [r]
        by_cases hok : ∀ x ∈ [r], 1 ≤ x ∧ x ≤ 0.5 * (min (standardizeImg img).n (standardizeImg img).m : ℕ)
        · rw [hr.1 hok] at hrad
          cases hrad
          rfl
        · have : ∃ x ∈ [r], x < 1 ∨ 0.5 * (min (standardizeImg img).n (standardizeImg img).m : ℕ) < x := by
            by_contra hno
            apply hok
            intro x hx
            constructor
            · by_contra hlt
              exact hno ⟨x, hx, Or.inl (not_le.1 hlt)⟩
            · by_contra hlt
              exact hno ⟨x, hx, Or.inr (not_le.1 hlt)⟩
          rw [hr.2 this] at hrad
          cases hrad
  simp only [genusDistance, bind, Except.bind] at h
  split at h
  · cases h
  rename_i g1 hg1
  split at h
  · cases h
  rename_i g2 hg2
  split at h
  · cases h
  rename_i scale hscale
  obtain ⟨a1, b1, pa1, pb1, ev1, d1, r1⟩ := obj img1 0 l1 h1 g1 rfl rfl hg1
  obtain ⟨a2, b2, pa2, pb2, ev2, d2, r2⟩ := obj img2 1 l2 h2 g2 rfl rfl hg2
  obtain ⟨p, f1, f2, hp, s1, s2, hd⟩ := dist_parts h
  have cur : ∀ (g : GenusObj) (img : Arr2 (Option ℝ)) (c : CurveArgs), g.data = standardizeImg img → g.radii = [some r] →
      g.thresholds.n = 100 → (g.curve smooth c).vals = (List.range 100).map fun k =>
        genusValue (smooth r (standardizeImg img)) (g.thresholds.get k) c.removal c.minSize c.conn := by
    intro g img c e1 e2 e3
    simp only [GenusObj.curve, GenusObj.curves, e1, e2, e3, genusStats, List.map_cons, List.map_nil, List.headD_cons, List.map_map,
      Function.comp_def]
  have siz : ∀ (g : GenusObj) (img : Arr2 (Option ℝ)) (c : CurveArgs), g.data = standardizeImg img →
      ((g.curve smooth c).size : ℝ) = img.n * img.m := by
    intro g img c e1
    show ((g.data.n * g.data.m : ℕ) : ℝ) = _
    rw [e1]
    push_cast
    rfl
  refine ⟨a1, b1, a2, b2, scale, g1.thresholds, g2.thresholds, p, f1, f2, pa1, pb1, pa2, pb2, ev1, ev2, hscale, hp, ?_, ?_, hd⟩
  · rw [GenusCurve.perArea, cur g1 img1 c1 d1 r1 ev1.1, siz g1 img1 c1 d1, List.map_map] at s1
    have e : (g1.curve smooth c1).thr = g1.thresholds := rfl
    rw [e, ev1.1] at s1
    exact s1
  · rw [GenusCurve.perArea, cur g2 img2 c2 d2 r2 ev2.1, siz g2 img2 c2 d2, List.map_map] at s2
    have e : (g2.curve smooth c2).thr = g2.thresholds := rfl
    rw [e, ev2.1] at s2
    exact s2

/-- A curve has distance zero from itself on the same pixel scale. -/
theorem C85_same {spl : Spline} {g : GenusCurve} {d : ℝ} (h : genusDist spl 1 g g = .ok d) : d = 0 := by
  obtain ⟨p, f1, f2, -, h1, h2, rfl⟩ := dist_parts h
  rw [div_one] at h1
  rw [h1] at h2
  cases h2
  simp [normAt]

/-- Exchange of the two curves: with the factor `s` between the pixel scales the distance becomes `d / s`. -/
theorem C85_exchange {spl : Spline} (hs : Spec.Interpolates spl) {s : ℝ} (h0 : 0 < s) {g1 g2 : GenusCurve} {d : ℝ}
    (h : genusDist spl s g1 g2 = .ok d) : genusDist spl s⁻¹ g2 g1 = .ok (d / s) := by
  obtain ⟨p, f1, f2, hp, h1, h2, rfl⟩ := dist_parts h
  have e1 : g1.perArea (g1.size : ℝ) = (g1.perArea ((g1.size : ℝ) / s)).map (s⁻¹ * ·) := by
    simp only [GenusCurve.perArea, List.map_map]
    apply List.map_congr_left
    intro v _
    simp only [Function.comp]
    field_simp
  have e2 : g2.perArea ((g2.size : ℝ) / s⁻¹) = (g2.perArea (g2.size : ℝ)).map (s⁻¹ * ·) := by
    simp only [GenusCurve.perArea, List.map_map]
    apply List.map_congr_left
    intro v _
    simp only [Function.comp]
    field_simp
  have q1 := hs.scales _ _ _ s⁻¹ h1
  have q2 := hs.scales _ _ _ s⁻¹ h2
  rw [← e1] at q1
  rw [← e2] at q2
  rw [dist_mk (points_comm _ _ hp) q2 q1]
  congr 1
  have hsum : ∑ k ∈ range p.n, (s⁻¹ * f2 (p.get k) - s⁻¹ * f1 (p.get k)) ^ 2
      = (s⁻¹) ^ 2 * ∑ k ∈ range p.n, (f1 (p.get k) - f2 (p.get k)) ^ 2 := by
    rw [mul_sum]
    apply sum_congr rfl
    intro k _
    ring
  simp only [normAt]
  rw [hsum, Real.sqrt_mul (sq_nonneg _), Real.sqrt_sq (by positivity)]
  ring

/-- Triangle inequality for curves with common thresholds and a common pixel scale.  Missing from the full statement: curves with
different thresholds, for which it is false (`C85_triangle_violated`). -/
theorem C85_triangle_partial {spl : Spline} {g1 g2 g3 : GenusCurve} (h12 : g1.thr = g2.thr) (h23 : g2.thr = g3.thr) {a b c : ℝ}
    (ha : genusDist spl 1 g1 g2 = .ok a) (hb : genusDist spl 1 g2 g3 = .ok b) (hc : genusDist spl 1 g1 g3 = .ok c) : c ≤ a + b := by
  obtain ⟨p, f1, f2, p1, a1, a2, rfl⟩ := dist_parts ha
  obtain ⟨q, f2', f3, p2, b1, b2, rfl⟩ := dist_parts hb
  obtain ⟨r, f1', f3', p3, c1, c2, rfl⟩ := dist_parts hc
  have e1 : q = p := by rw [← h23, ← h12] at p2; rw [← h12] at p1; rw [p1] at p2; exact (Except.ok.inj p2).symm
  have e2 : r = p := by rw [← h23, ← h12] at p3; rw [← h12] at p1; rw [p1] at p3; exact (Except.ok.inj p3).symm
  subst e1 e2
  rw [div_one] at a1 b1 c1
  rw [a1] at c1; rw [a2] at b1; rw [b2] at c2
  cases c1; cases b1; cases c2
  exact l2_sub_triangle _ _ _ _

/-- Symmetry fails whenever the pixel scales differ and the curves do. -/
theorem C85_symmetric_violated {spl : Spline} (hs : Spec.Interpolates spl) {s : ℝ} (h0 : 0 < s) (h1 : s ≠ 1) {g1 g2 : GenusCurve} {d : ℝ}
    (h : genusDist spl s g1 g2 = .ok d) (hd : d ≠ 0) : ∃ d', genusDist spl s⁻¹ g2 g1 = .ok d' ∧ d' ≠ d := by
  refine ⟨d / s, C85_exchange hs h0 h, ?_⟩
  intro he
  rw [div_eq_iff h0.ne'] at he
  exact h1 (mul_left_cancel₀ hd (by linarith))

private theorem standardize_img (a : Arr2 (Option ℝ)) (c b : ℝ) (hc : 0 < c) :
    standardizeImg (a.map (Option.map fun v => c * v + b)) = standardizeImg a := by
  have hflat : flat2 (a.map (Option.map fun v => c * v + b)) = (flat2 a).map (Option.map fun v => c * v + b) := by
    simp only [flat2, Arr2.map, List.map_flatMap, List.map_map, Function.comp_def]
  unfold standardizeImg
  rw [hflat]
  have hv : validVals ((flat2 a).map (Option.map fun v => c * v + b)) = (validVals (flat2 a)).map fun t => c * t + b := validVals_map _ _
  by_cases hne : validVals (flat2 a) = []
  · have hm : nanmean (flat2 a) = none := by simp [nanmean, meanO, hne]
    have hm' : nanmean ((flat2 a).map (Option.map fun v => c * v + b)) = none := by rw [nanmean, hv, hne]; simp [meanO]
    rw [hm, hm']
    simp only [Arr2.map]
    congr 1
    funext i j
    cases a.get i j <;> rfl
  obtain ⟨m, hm⟩ := exists_meanO hne
  obtain ⟨s, hs⟩ := exists_varO hne
  have hm' : nanmean ((flat2 a).map (Option.map fun v => c * v + b)) = some (c * m + b) := by
    rw [nanmean, hv, meanO_affine hm]
  have hs' : nanstd ((flat2 a).map (Option.map fun v => c * v + b)) = some (c * Real.sqrt s) := by
    rw [nanstd, hv, varO_affine hs, Option.map_some, Real.sqrt_mul (sq_nonneg c), Real.sqrt_sq hc.le]
  have hm0 : nanmean (flat2 a) = some m := hm
  have hs0 : nanstd (flat2 a) = some (Real.sqrt s) := by rw [nanstd, hs, Option.map_some]
  rw [hm', hs', hm0, hs0]
  simp only [Arr2.map]
  congr 1
  funext i j
  cases a.get i j with
  | none => rfl
  | some v =>
    simp only [Option.map_some, subO, divO, bind, Option.bind, pure]
    by_cases h0 : Real.sqrt s = 0
    · simp [h0]
    · rw [if_neg (by positivity), if_neg h0]
      congr 1
      field_simp
      ring

/-- The brightness scale does not matter: multiplying an image by a positive factor and adding a constant leaves the distance as it is,
for all options. -/
theorem C85_brightness (spl : Spline) (smooth : ℝ → Arr2 (Option ℝ) → Arr2 (Option ℝ)) (img1 img2 : Arr2 (Option ℝ)) (w1 w2 : WcsScales)
    (tol : ℝ) (o : GenusDistArgs) (c1 c2 : CurveArgs) (c b c' b' : ℝ) (hc : 0 < c) (hc' : 0 < c') :
    genusDistance spl smooth (img1.map (Option.map fun v => c * v + b)) (img2.map (Option.map fun v => c' * v + b')) w1 w2 tol o c1 c2
      = genusDistance spl smooth img1 img2 w1 w2 tol o c1 c2 := by
  simp only [genusDistance, distGenus, standardize_img _ _ _ hc, standardize_img _ _ _ hc']

/-- An image that is not constant and is at least two pixels across has distance zero from itself: with default options the
comparison always completes. -/
theorem C85_self {spl : Spline} (hs : Spec.Interpolates spl) (smooth : ℝ → Arr2 (Option ℝ) → Arr2 (Option ℝ)) {img : Arr2 (Option ℝ)}
    {v v' : ℝ} (hv : v ∈ validVals (flat2 img)) (hv' : v' ∈ validVals (flat2 img)) (hne : v ≠ v') (h2 : 2 ≤ min img.n img.m)
    {w : WcsScales} {tol : ℝ} (hw : w.distorted = false) (hsq : Spec.Square w tol) (h0 : w.s0 ≠ 0) (c : CurveArgs) :
    genusDistance spl smooth img img w w tol {} c c = .ok 0 := by
  have hvne : validVals (flat2 img) ≠ [] := List.ne_nil_of_mem hv
  obtain ⟨m, hm⟩ := exists_meanO hvne
  obtain ⟨q, hq⟩ := exists_varO hvne
  have hqpos : 0 < q := varO_pos hq hv hv' hne
  have hs0 : nanstd (flat2 img) = some (Real.sqrt q) := by rw [nanstd, hq, Option.map_some]
  have hsq0 : Real.sqrt q ≠ 0 := (Real.sqrt_pos.2 hqpos).ne'
  have himg : standardizeImg img = img.map (Option.map fun t => (t - m) / Real.sqrt q) := by
    unfold standardizeImg
    rw [show nanmean (flat2 img) = some m from hm, hs0]
    congr 1
    funext t
    cases t with
    | none => rfl
    | some t => simp [subO, divO, bind, Option.bind, pure, hsq0]
  have hflat : flat2 (standardizeImg img) = (flat2 img).map (Option.map fun t => (t - m) / Real.sqrt q) := by
    rw [himg]
    simp only [flat2, Arr2.map, List.map_flatMap, List.map_map, Function.comp_def]
  have hvals : validVals (flat2 (standardizeImg img)) = (validVals (flat2 img)).map fun t => (t - m) / Real.sqrt q := by
    rw [hflat, validVals_map]
  have hvne' : validVals (flat2 (standardizeImg img)) ≠ [] := by rw [hvals]; simpa using hvne
  obtain ⟨a, ha⟩ := exists_minO hvne'
  obtain ⟨b, hb⟩ := exists_maxO hvne'
  obtain ⟨-, la⟩ := minO_eq_some.1 ha
  obtain ⟨-, lb⟩ := maxO_eq_some.1 hb
  have m1 : (v - m) / Real.sqrt q ∈ validVals (flat2 (standardizeImg img)) := by rw [hvals]; exact List.mem_map.2 ⟨v, hv, rfl⟩
  have m2 : (v' - m) / Real.sqrt q ∈ validVals (flat2 (standardizeImg img)) := by rw [hvals]; exact List.mem_map.2 ⟨v', hv', rfl⟩
  have hab : a < b := by
    have hdiff : (v - m) / Real.sqrt q ≠ (v' - m) / Real.sqrt q := by
      intro h
      rw [div_left_inj' hsq0] at h
      exact hne (by linarith)
    rcases lt_or_gt_of_ne hdiff with h | h
    · exact lt_of_le_of_lt (la _ m1) (lt_of_lt_of_le h (lb _ m2))
    · exact lt_of_le_of_lt (la _ m2) (lt_of_lt_of_le h (lb _ m1))
  have hthr : rangeThresholds (flat2 (standardizeImg img)) none {} = .ok (linspace a b 100, none) := by
    simp [rangeThresholds, rawMin, rawMax, checkMin, checkMax, defaultMin, defaultMax, nanmin, nanmax, ha, hb, orNan, Except.map, bind,
      Except.bind, brightLinspace]
  have hobj : ∀ k, distGenus img {} k = .ok ⟨standardizeImg img, linspace a b 100, none, [some 1]⟩ := by
    intro k
    have hr := (C85_default_radii_violated (min img.n img.m)).1 h2
    have hn : (standardizeImg img).n = img.n := rfl
    have hm' : (standardizeImg img).m = img.m := rfl
    simp only [distGenus, PairArg.get, genusInit, bind, Except.bind, pure, Except.pure, hthr, hn, hm', hr]
  have hcs : commonScale w w tol = .ok 1 := by
    obtain ⟨s, hs'⟩ := (C20_factor w w tol h0).1.2 ⟨hw, hw, hsq, hsq⟩
    have := (C20_factor w w tol h0).2 s hs'
    have h1 : s = 1 := mul_right_cancel₀ h0 (by rw [this, one_mul])
    rw [hs', h1]
  have htn : (linspace a b 100).n = 100 := rfl
  set g : GenusCurve := GenusObj.curve ⟨standardizeImg img, linspace a b 100, none, [some 1]⟩ smooth c with hg
  have hgt : g.thr = linspace a b 100 := rfl
  have hgl : g.vals.length = 100 := by
    simp [hg, GenusObj.curve, GenusObj.curves, genusStats, htn]
  have hsort : ((List.range g.thr.n).map g.thr.get).Pairwise (· < ·) := by
    rw [List.pairwise_map, hgt]
    refine List.Pairwise.imp ?_ (List.pairwise_lt_range)
    intro i j hij
    exact linspace_strictMono hab (by norm_num) hij
  obtain ⟨f, hf, -⟩ := hs.accepts ((List.range g.thr.n).map g.thr.get) (g.perArea (g.size : ℝ))
    (by simp [GenusCurve.perArea, hgl, hgt, htn]) (by simp [hgt, htn]) hsort
  have hlne : (List.range g.thr.n).map g.thr.get ≠ [] := by simp [hgt, htn]
  obtain ⟨x, hx⟩ := exists_minO hlne
  obtain ⟨y, hy⟩ := exists_maxO hlne
  have hp : genusPoints g.thr g.thr = .ok (linspace x y (2 * ((g.thr.n + g.thr.n) / 2))) := by
    rw [genusPoints, hx, hy]
    simp only [orNan, bind, Except.bind, pure, Except.pure, max_self, min_self]
  have hd := dist_mk (s := 1) (g1 := g) (g2 := g) hp (by rw [div_one]; exact hf) hf
  have hz := C85_same hd
  rw [hz] at hd
  simp only [genusDistance, hobj, hcs, bind, Except.bind]
  exact hd

/-- The curves are compared per pixel times one factor of the pixel scale, not per angular area: two maps of the same angular area with
the same counts at every threshold, on different pixel scales, do not have distance zero. -/
theorem C85_area_violated {spl : Spline} (hs : Spec.Interpolates spl) {a b : ℝ} (hab : a < b) {n : ℕ} (hn : 4 ≤ n) {vals : List ℤ}
    (hlen : vals.length = n) (hv : vals.headD 0 ≠ 0) {size1 size2 : ℕ} (p1 : 0 < size1) (p2 : 0 < size2) {s1 s2 : ℝ} (q1 : 0 < s1) (q2 : 0 < s2)
    (hne : s1 ≠ s2) (harea : size1 * s1 ^ 2 = size2 * s2 ^ 2) :
    ∃ d, genusDist spl (s2 / s1) ⟨linspace a b n, vals, size1⟩ ⟨linspace a b n, vals, size2⟩ = .ok d ∧ d ≠ 0 := by
  set t := linspace a b n with ht
  have htn : t.n = n := rfl
  have hsort : ((List.range t.n).map t.get).Pairwise (· < ·) := by
    rw [List.pairwise_map]
    refine List.Pairwise.imp ?_ (List.pairwise_lt_range)
    intro i j hij
    exact linspace_strictMono hab (by omega) hij
  have hlenx : ((List.range t.n).map t.get).length = n := by simp [htn]
  have P1 : (0 : ℝ) < size1 := by exact_mod_cast p1
  have P2 : (0 : ℝ) < size2 := by exact_mod_cast p2
  obtain ⟨f1, e1, i1⟩ := hs.accepts ((List.range t.n).map t.get) (GenusCurve.perArea ⟨t, vals, size1⟩ ((size1 : ℝ) / (s2 / s1)))
    (by rw [hlenx]; simp [GenusCurve.perArea, hlen]) (by omega) hsort
  obtain ⟨f2, e2, i2⟩ := hs.accepts ((List.range t.n).map t.get) (GenusCurve.perArea ⟨t, vals, size2⟩ (size2 : ℝ))
    (by rw [hlenx]; simp [GenusCurve.perArea, hlen]) (by omega) hsort
  have hmin : minO ((List.range t.n).map t.get) = some a := by
    rw [minO_eq_some]
    constructor
    · rw [List.mem_map]
      exact ⟨0, by rw [List.mem_range, htn]; omega, linspace_first a b n⟩
    · intro v hv'
      obtain ⟨k, -, rfl⟩ := List.mem_map.1 hv'
      rcases Nat.eq_zero_or_pos k with rfl | hk
      · rw [ht, linspace_first]
      · have := linspace_strictMono hab (by omega : 2 ≤ n) hk
        rw [linspace_first] at this
        exact this.le
  have hmax : maxO ((List.range t.n).map t.get) = some b := by
    rw [maxO_eq_some]
    constructor
    · rw [List.mem_map]
      exact ⟨n - 1, by rw [List.mem_range, htn]; omega, linspace_last a b (by omega)⟩
    · intro v hv'
      obtain ⟨k, hk, rfl⟩ := List.mem_map.1 hv'
      rw [List.mem_range, htn] at hk
      rcases Nat.lt_or_ge k (n - 1) with h | h
      · have := linspace_strictMono hab (by omega : 2 ≤ n) h
        rw [linspace_last a b (by omega)] at this
        exact this.le
      · have : k = n - 1 := by omega
        rw [this, ht, linspace_last a b (by omega)]
  have hp : genusPoints t t = .ok (linspace a b (2 * ((n + n) / 2))) := by
    rw [genusPoints, hmin, hmax]
    simp only [orNan, bind, Except.bind, pure, Except.pure, max_self, min_self, htn]
  refine ⟨_, dist_mk (g1 := ⟨t, vals, size1⟩) (g2 := ⟨t, vals, size2⟩) hp e1 e2, ?_⟩
  obtain ⟨v0, rest, rfl⟩ : ∃ v0 rest, vals = v0 :: rest := by
    cases vals with
    | nil => simp at hv
    | cons v r => exact ⟨v, r, rfl⟩
  have hv0 : (v0 : ℝ) ≠ 0 := by
    have : v0 ≠ 0 := hv
    exact_mod_cast this
  have g1 : f1 a = v0 / (size1 / (s2 / s1)) := by
    have := i1 0 (by rw [hlenx]; omega) (by simp [GenusCurve.perArea])
    rw [getElem_range_map, ht, linspace_first] at this
    simpa [GenusCurve.perArea] using this
  have g2 : f2 a = v0 / size2 := by
    have := i2 0 (by rw [hlenx]; omega) (by simp [GenusCurve.perArea])
    rw [getElem_range_map, ht, linspace_first] at this
    simpa [GenusCurve.perArea] using this
  have hdiff : f1 a - f2 a ≠ 0 := by
    rw [g1, g2]
    intro h0
    have h1 : (v0 : ℝ) * (s2 / s1 / size1 - 1 / size2) = 0 := by
      rw [← h0]
      field_simp
    rcases mul_eq_zero.1 h1 with h2 | h2
    · exact hv0 h2
    · rw [sub_eq_zero, div_div, div_eq_div_iff (by positivity) P2.ne', one_mul] at h2
      -- s2 * size2 = s1 * size1
      have h3 : s1 * (s2 * size2) = s2 * (s2 * size2) := by
        rw [h2]
        nlinarith [harea, h2]
      exact hne (mul_right_cancel₀ (by positivity) h3)
  intro hzero
  rw [normAt, Real.sqrt_eq_zero (sum_nonneg fun k _ => sq_nonneg _)] at hzero
  have := (sum_eq_zero_iff_of_nonneg fun k _ => sq_nonneg _).1 hzero 0 (by
    rw [mem_range]
    show 0 < 2 * ((n + n) / 2)
    omega)
  rw [linspace_first] at this
  exact hdiff (pow_eq_zero_iff (two_ne_zero) |>.1 this)

/-- `numpts` of `Genus_Distance` has no effect. -/
theorem C85_numpts_violated (spl : Spline) (smooth : ℝ → Arr2 (Option ℝ) → Arr2 (Option ℝ)) (img1 img2 : Arr2 (Option ℝ)) (w1 w2 : WcsScales)
    (tol : ℝ) (o : GenusDistArgs) (c1 c2 : CurveArgs) (n : ℕ) :
    genusDistance spl smooth img1 img2 w1 w2 tol { o with numpts := n } c1 c2 = genusDistance spl smooth img1 img2 w1 w2 tol o c1 c2 := rfl

/-- Only the first smoothing radius enters the distance. -/
theorem C85_first_radius_violated (spl : Spline) (smooth : ℝ → Arr2 (Option ℝ) → Arr2 (Option ℝ)) (img1 img2 : Arr2 (Option ℝ))
    (w1 w2 : WcsScales) (tol : ℝ) (o : GenusDistArgs) (c1 c2 : CurveArgs) (r : ℝ) (rest : List ℝ)
    (h : ∀ v ∈ r :: rest, 1 ≤ v ∧ v ≤ 0.5 * (min img1.n img1.m : ℕ) ∧ v ≤ 0.5 * (min img2.n img2.m : ℕ)) :
    genusDistance spl smooth img1 img2 w1 w2 tol { o with radii := .array (r :: rest) } c1 c2
      = genusDistance spl smooth img1 img2 w1 w2 tol { o with radii := .array [r] } c1 c2 := by
  have a1 := (C85_radii (min img1.n img1.m) (r :: rest)).1 fun v hv => ⟨(h v hv).1, (h v hv).2.1⟩
  have b1 := (C85_radii (min img1.n img1.m) [r]).1 fun v hv => by
    have : v = r := by simpa using hv
    subst this
    exact ⟨(h v (by simp)).1, (h v (by simp)).2.1⟩
  have a2 := (C85_radii (min img2.n img2.m) (r :: rest)).1 fun v hv => ⟨(h v hv).1, (h v hv).2.2⟩
  have b2 := (C85_radii (min img2.n img2.m) [r]).1 fun v hv => by
    have : v = r := by simpa using hv
    subst this
    exact ⟨(h v (by simp)).1, (h v (by simp)).2.2⟩
  have hs : ∀ img : Arr2 (Option ℝ), (standardizeImg img).n = img.n ∧ (standardizeImg img).m = img.m := fun img => ⟨rfl, rfl⟩
  simp only [genusDistance, distGenus, genusInit, bind, Except.bind, pure, Except.pure, (hs _).1, (hs _).2, a1, b1, a2, b2]
  cases o.minValue.get 0 <;> simp only
  cases o.maxValue.get 0 <;> simp only
  cases o.lowPct.get 0 <;> simp only
  cases o.highPct.get 0 <;> simp only
  rename_i x1 x2 x3 x4
  cases rangeThresholds (flat2 (standardizeImg img1)) none { minValue := x1, maxValue := x2, lowPct := x3, highPct := x4 } <;> simp only
  cases o.minValue.get 1 <;> simp only
  cases o.maxValue.get 1 <;> simp only
  cases o.lowPct.get 1 <;> simp only
  cases o.highPct.get 1 <;> simp only
  rename_i y1 y2 y3 y4
  cases rangeThresholds (flat2 (standardizeImg img2)) none { minValue := y1, maxValue := y2, lowPct := y3, highPct := y4 } <;> simp only
  rfl

/-- Ranges without overlap are not refused: the curves are then compared at points between the two ranges, where neither was
measured. -/
theorem C85_disjoint_violated {t1 t2 p : Arr1 ℝ} (h : genusPoints t1 t2 = .ok p) (hn : 2 ≤ p.n)
    (hd : ∀ i < t1.n, ∀ j < t2.n, t1.get i < t2.get j) {k : ℕ} (hk : k < p.n) :
    (∀ i < t1.n, t1.get i ≤ p.get k) ∧ ∀ j < t2.n, p.get k ≤ t2.get j := by
  simp only [genusPoints, orNan, bind, Except.bind, pure, Except.pure] at h
  cases h1 : minO ((List.range t1.n).map t1.get) <;> cases h2 : minO ((List.range t2.n).map t2.get) <;>
    cases h3 : maxO ((List.range t1.n).map t1.get) <;> cases h4 : maxO ((List.range t2.n).map t2.get) <;>
    simp only [h1, h2, h3, h4, reduceCtorEq] at h
  rename_i a1 a2 b1 b2
  simp only [Except.ok.injEq] at h
  obtain ⟨ma1, la1⟩ := minO_eq_some.1 h1
  obtain ⟨ma2, la2⟩ := minO_eq_some.1 h2
  obtain ⟨mb1, lb1⟩ := maxO_eq_some.1 h3
  obtain ⟨mb2, lb2⟩ := maxO_eq_some.1 h4
  simp only [List.mem_map, List.mem_range] at ma1 ma2 mb1 mb2
  obtain ⟨i1, hi1, rfl⟩ := ma1
  obtain ⟨j1, hj1, rfl⟩ := ma2
  obtain ⟨i2, hi2, rfl⟩ := mb1
  obtain ⟨j2, hj2, rfl⟩ := mb2
  have r1 : max (t1.get i1) (t2.get j1) = t2.get j1 := max_eq_right (hd _ hi1 _ hj1).le
  have r2 : min (t1.get i2) (t2.get j2) = t1.get i2 := min_eq_left (hd _ hi2 _ hj2).le
  rw [r1, r2] at h
  subst h
  set N := 2 * ((t1.n + t2.n) / 2) with hN
  have hN2 : 2 ≤ N := hn
  have hN1 : (0 : ℝ) < (N : ℝ) - 1 := by
    have : (2 : ℝ) ≤ N := by exact_mod_cast hN2
    linarith
  have hgap : t1.get i2 < t2.get j1 := hd _ hi2 _ hj1
  have hval : (linspace (t2.get j1) (t1.get i2) N).get k = t2.get j1 - ((k : ℝ) / ((N : ℝ) - 1)) * (t2.get j1 - t1.get i2) := by
    simp only [linspace]
    field_simp
    ring
  have hk' : k < N := hk
  have hk0 : 0 ≤ (k : ℝ) / ((N : ℝ) - 1) := by positivity
  have hk1 : (k : ℝ) / ((N : ℝ) - 1) ≤ 1 := by
    rw [div_le_one hN1]
    have : (k : ℝ) + 1 ≤ N := by exact_mod_cast hk'
    linarith
  rw [hval]
  set r := (k : ℝ) / ((N : ℝ) - 1)
  constructor
  · intro i hi
    have := lb1 (t1.get i) (List.mem_map.2 ⟨i, List.mem_range.2 hi, rfl⟩)
    nlinarith
  · intro j hj
    have := la2 (t2.get j) (List.mem_map.2 ⟨j, List.mem_range.2 hj, rfl⟩)
    nlinarith

/-- A 2 × 2 image meets the hypotheses of `C85_self`. -/
example : ∃ img : Arr2 (Option ℝ), (0 : ℝ) ∈ validVals (flat2 img) ∧ (3 : ℝ) ∈ validVals (flat2 img) ∧ 2 ≤ min img.n img.m := by
  refine ⟨⟨2, 2, fun i j => some (2 * i + j)⟩, ?_, ?_, by simp⟩ <;>
    simp [flat2, List.range_succ, validVals] <;> norm_num

/-- The thresholds of `linspace` as a list: increasing, of length `n`, with ends `a` and `b`. -/
private theorem linspace_list {a b : ℝ} (hab : a < b) {n : ℕ} (hn : 2 ≤ n) :
    ((List.range (linspace a b n).n).map (linspace a b n).get).Pairwise (· < ·) ∧
      ((List.range (linspace a b n).n).map (linspace a b n).get).length = n ∧
      minO ((List.range (linspace a b n).n).map (linspace a b n).get) = some a ∧
      maxO ((List.range (linspace a b n).n).map (linspace a b n).get) = some b := by
  have htn : (linspace a b n).n = n := rfl
  refine ⟨?_, by simp [htn], ?_, ?_⟩
  · rw [List.pairwise_map]
    exact List.Pairwise.imp (fun hij => linspace_strictMono hab hn hij) List.pairwise_lt_range
  · rw [minO_eq_some]
    refine ⟨List.mem_map.2 ⟨0, by rw [List.mem_range, htn]; omega, linspace_first a b n⟩, ?_⟩
    intro v hv'
    obtain ⟨k, -, rfl⟩ := List.mem_map.1 hv'
    rcases Nat.eq_zero_or_pos k with rfl | hk
    · rw [linspace_first]
    · have := linspace_strictMono hab hn hk
      rw [linspace_first] at this
      exact this.le
  · rw [maxO_eq_some]
    refine ⟨List.mem_map.2 ⟨n - 1, by rw [List.mem_range, htn]; omega, linspace_last a b (by omega)⟩, ?_⟩
    intro v hv'
    obtain ⟨k, hk, rfl⟩ := List.mem_map.1 hv'
    rw [List.mem_range, htn] at hk
    rcases Nat.lt_or_ge k (n - 1) with h | h
    · have := linspace_strictMono hab hn h
      rw [linspace_last a b (by omega)] at this
      exact this.le
    · have : k = n - 1 := by omega
      rw [this, linspace_last a b (by omega)]

/-- The triangle inequality fails for curves with different ranges: two curves measured between `a` and `b` that agree at `b` but not
at `a` both have distance zero from a curve measured from `b` on that starts at the same value, although their own distance is not
zero. -/
theorem C85_triangle_violated {spl : Spline} (hs : Spec.Interpolates spl) {a b e : ℝ} (hab : a < b) (hbe : b < e) {n : ℕ} (hn : 4 ≤ n)
    {v1 v2 v3 : List ℤ} (l1 : v1.length = n) (l2 : v2.length = n) (l3 : v3.length = n) (hlast1 : v1[n - 1]? = v2[0]?)
    (hlast3 : v3[n - 1]? = v2[0]?) (hfirst : v1[0]? ≠ v3[0]?) {size : ℕ} (hp : 0 < size) :
    genusDist spl 1 ⟨linspace a b n, v1, size⟩ ⟨linspace b e n, v2, size⟩ = .ok 0 ∧
    genusDist spl 1 ⟨linspace b e n, v2, size⟩ ⟨linspace a b n, v3, size⟩ = .ok 0 ∧
    ∃ c, genusDist spl 1 ⟨linspace a b n, v1, size⟩ ⟨linspace a b n, v3, size⟩ = .ok c ∧ 0 < c := by
  obtain ⟨sA, nA, mA, MA⟩ := linspace_list hab (by omega : 2 ≤ n)
  obtain ⟨sB, nB, mB, MB⟩ := linspace_list hbe (by omega : 2 ≤ n)
  have P : (0 : ℝ) < size := by exact_mod_cast hp
  obtain ⟨f1, e1, i1⟩ := hs.accepts _ (GenusCurve.perArea ⟨linspace a b n, v1, size⟩ (size : ℝ))
    (by rw [nA]; simp [GenusCurve.perArea, l1]) (by omega) sA
  obtain ⟨f2, e2, i2⟩ := hs.accepts _ (GenusCurve.perArea ⟨linspace b e n, v2, size⟩ (size : ℝ))
    (by rw [nB]; simp [GenusCurve.perArea, l2]) (by omega) sB
  obtain ⟨f3, e3, i3⟩ := hs.accepts _ (GenusCurve.perArea ⟨linspace a b n, v3, size⟩ (size : ℝ))
    (by rw [nA]; simp [GenusCurve.perArea, l3]) (by omega) sA
  have q12 : genusPoints (linspace a b n) (linspace b e n) = .ok (linspace b b (2 * ((n + n) / 2))) := by
    rw [genusPoints, mA, mB, MA, MB]
    simp only [orNan, bind, Except.bind, pure, Except.pure, max_eq_right hab.le, min_eq_left hbe.le]
    rfl
  have q23 : genusPoints (linspace b e n) (linspace a b n) = .ok (linspace b b (2 * ((n + n) / 2))) := by
    rw [genusPoints, mA, mB, MA, MB]
    simp only [orNan, bind, Except.bind, pure, Except.pure, max_eq_left hab.le, min_eq_right hbe.le]
    rfl
  have q13 : genusPoints (linspace a b n) (linspace a b n) = .ok (linspace a b (2 * ((n + n) / 2))) := by
    rw [genusPoints, mA, MA]
    simp only [orNan, bind, Except.bind, pure, Except.pure, max_self, min_self]
    rfl
  have at0 : ∀ v : List ℤ, v.length = n → ∃ w : ℤ, v[0]? = some w := fun v hv => ⟨v[0], List.getElem?_eq_getElem (by omega)⟩
  obtain ⟨w1, hw1⟩ := at0 v1 l1
  obtain ⟨w2, hw2⟩ := at0 v2 l2
  obtain ⟨w3, hw3⟩ := at0 v3 l3
  rw [hw2] at hlast1 hlast3
  have first : ∀ {x y : ℝ} {v : List ℤ} {f : ℝ → ℝ} {w : ℤ}, v.length = n → v[0]? = some w →
      (∀ k (h : k < ((List.range (linspace x y n).n).map (linspace x y n).get).length)
        (h' : k < (GenusCurve.perArea ⟨linspace x y n, v, size⟩ (size : ℝ)).length),
        f ((List.range (linspace x y n).n).map (linspace x y n).get)[k] = (GenusCurve.perArea ⟨linspace x y n, v, size⟩ (size : ℝ))[k]) →
      f x = w / size := by
    intro x y v f w hl hv hi
    have := hi 0 (by simp only [List.length_map, List.length_range]; show 0 < n; omega) (by simp [GenusCurve.perArea, hl]; omega)
    rw [getElem_range_map, linspace_first] at this
    rw [this]
    have h0 : v[0]'(by omega) = w := (List.getElem?_eq_some_iff.1 hv).2
    simp [GenusCurve.perArea, h0]
  have last : ∀ {x y : ℝ} {v : List ℤ} {f : ℝ → ℝ} {w : ℤ}, v.length = n → v[n - 1]? = some w →
      (∀ k (h : k < ((List.range (linspace x y n).n).map (linspace x y n).get).length)
        (h' : k < (GenusCurve.perArea ⟨linspace x y n, v, size⟩ (size : ℝ)).length),
        f ((List.range (linspace x y n).n).map (linspace x y n).get)[k] = (GenusCurve.perArea ⟨linspace x y n, v, size⟩ (size : ℝ))[k]) →
      f y = w / size := by
    intro x y v f w hl hv hi
    have := hi (n - 1) (by simp only [List.length_map, List.length_range]; show n - 1 < n; omega) (by simp [GenusCurve.perArea, hl]; omega)
    rw [getElem_range_map, linspace_last x y (by omega)] at this
    rw [this]
    have h0 : v[n - 1]'(by omega) = w := (List.getElem?_eq_some_iff.1 hv).2
    simp [GenusCurve.perArea, h0]
  have F1 := last l1 hlast1 i1
  have F2 := first l2 hw2 i2
  have F3 := last l3 hlast3 i3
  have G1 := first l1 hw1 i1
  have G3 := first l3 hw3 i3
  have one : ∀ {f g : ℝ → ℝ}, f b = g b → normAt (linspace b b (2 * ((n + n) / 2))) f g = 0 := by
    intro f g h
    rw [normAt, Finset.sum_eq_zero, Real.sqrt_zero]
    intro k _
    have : (linspace b b (2 * ((n + n) / 2))).get k = b := by simp [linspace]
    rw [this, h, sub_self, zero_pow two_ne_zero]
  have d12 := dist_mk (s := 1) (g1 := ⟨linspace a b n, v1, size⟩) (g2 := ⟨linspace b e n, v2, size⟩) q12 (by rw [div_one]; exact e1) e2
  have d23 := dist_mk (s := 1) (g1 := ⟨linspace b e n, v2, size⟩) (g2 := ⟨linspace a b n, v3, size⟩) q23 (by rw [div_one]; exact e2) e3
  have d13 := dist_mk (s := 1) (g1 := ⟨linspace a b n, v1, size⟩) (g2 := ⟨linspace a b n, v3, size⟩) q13 (by rw [div_one]; exact e1) e3
  rw [one (by rw [F1, F2])] at d12
  rw [one (by rw [F2, F3])] at d23
  refine ⟨d12, d23, _, d13, ?_⟩
  rw [normAt]
  refine Real.sqrt_pos.2 (Finset.sum_pos' (fun k _ => sq_nonneg _) ⟨0, ?_, ?_⟩)
  · rw [Finset.mem_range]
    show 0 < 2 * ((n + n) / 2)
    omega
  · rw [linspace_first, G1, G3]
    refine sq_pos_of_ne_zero ?_
    rw [← sub_div]
    refine div_ne_zero ?_ P.ne'
    rw [sub_ne_zero]
    intro h
    apply hfirst
    rw [hw1, hw3]
    exact_mod_cast congrArg some (by exact_mod_cast h : w1 = w3)

/-- Three curves of the kind in `C85_triangle_violated`. -/
example : ([3, 2, 1, 0] : List ℤ)[4 - 1]? = ([0, 1, 1, 0] : List ℤ)[0]? ∧ ([5, 2, 1, 0] : List ℤ)[4 - 1]? = ([0, 1, 1, 0] : List ℤ)[0]? ∧
    ([3, 2, 1, 0] : List ℤ)[0]? ≠ ([5, 2, 1, 0] : List ℤ)[0]? := by decide

/-- Two maps of the same sky, 4 × 4 pixels of 2 and 8 × 8 pixels of 1: the hypotheses of `C85_area_violated`. -/
example : ((16 : ℕ) : ℝ) * 2 ^ 2 = ((64 : ℕ) : ℝ) * 1 ^ 2 ∧ ([1, 2, 0, -1] : List ℤ).headD 0 ≠ 0 := by norm_num

/-! ### non-vacuity: a routine with the properties assumed of the spline -/

open Classical in
/-- Interpolation by one polynomial. -/
noncomputable def polySpline : Spline := fun xs ys =>
  if xs.Pairwise (· < ·) then
    .ok fun x => (Lagrange.interpolate (Finset.range xs.length) (fun k => xs.getD k 0) (fun k => ys.getD k 0)).eval x
  else .error .valueError

theorem polySpline_interpolates : Spec.Interpolates polySpline := by
  refine ⟨?_, ?_, ?_⟩
  · intro xs ys hl _ hs
    refine ⟨_, if_pos hs, ?_⟩
    intro k h h'
    have hinj : Set.InjOn (fun k => xs.getD k 0) (Finset.range xs.length) := by
      intro i hi j hj hij
      simp only [coe_range, Set.mem_Iio] at hi hj
      simp only [List.getD_eq_getElem _ _ hi, List.getD_eq_getElem _ _ hj] at hij
      by_contra hne
      rcases Nat.lt_or_gt_of_ne hne with h1 | h1
      · exact absurd hij ((List.pairwise_iff_getElem.1 hs) i j hi hj h1).ne
      · exact absurd hij ((List.pairwise_iff_getElem.1 hs) j i hj hi h1).ne'
    have := Lagrange.eval_interpolate_at_node (r := fun k => ys.getD k 0) hinj (i := k) (by simpa using h)
    simp only [List.getD_eq_getElem _ _ h, List.getD_eq_getElem _ _ h'] at this
    exact this
  · intro xs ys f c h
    unfold polySpline at h ⊢
    split_ifs at h ⊢ with hs
    cases h
    congr 1
    funext x
    have : (fun k => (ys.map (c * ·)).getD k 0) = c • fun k => ys.getD k 0 := by
      funext k
      simp only [List.getD_eq_getElem?_getD, List.getElem?_map, Pi.smul_apply, smul_eq_mul]
      cases ys[k]? <;> simp
    rw [this, map_smul]
    simp [smul_eq_mul]
  · intro xs ys hs
    exact if_neg hs

end TS
