import Verif.Model.Psds
import Verif.Spec.Radial
import Mathlib.Data.List.ProdSigma

namespace TS
open Finset Spec

/-! ### Reversal slices -/

theorem resolve_full_rev (n : ℕ) : (PySlice.mk none none (-1)).resolve n = ⟨(n : ℤ) - 1, -1, n⟩ := by
  simp only [PySlice.resolve]
  norm_num
  omega

theorem rev_ix {n i : ℕ} (hi : i < n) : (SliceIx.mk ((n : ℤ) - 1) (-1) n).ix i = n - 1 - i := by
  simp [SliceIx.ix]; omega

/-! ### Pixel lists -/

/-- All pixels row by row. -/
def pixels (n m : ℕ) : List (ℕ × ℕ) := (List.range n) ×ˢ (List.range m)

theorem pixels_nodup (n m : ℕ) : (pixels n m).Nodup := List.Nodup.product List.nodup_range List.nodup_range

theorem mem_pixels {n m : ℕ} {p : ℕ × ℕ} : p ∈ pixels n m ↔ p.1 < n ∧ p.2 < m := by
  obtain ⟨a, b⟩ := p
  simp [pixels, List.mem_product]

theorem pixels_toFinset (n m : ℕ) : (pixels n m).toFinset = range n ×ˢ range m := by
  ext p
  rw [List.mem_toFinset, mem_pixels, Finset.mem_product, Finset.mem_range, Finset.mem_range]

/-- The pixel selected by `pspec`: finite and inside the mask (if any). -/
def selected (psd2 : Arr2 (Option ℝ)) (mask : Option (Arr2 Bool)) (p : ℕ × ℕ) : Bool :=
  (psd2.get p.1 p.2).isSome && (match mask with | none => true | some a => a.get p.1 p.2)

theorem pspecSamples_eq (psd2 : Arr2 (Option ℝ)) (dist : Arr2 ℝ) (mask : Option (Arr2 Bool)) :
    pspecSamples psd2 dist mask =
      ((pixels psd2.n psd2.m).filter (selected psd2 mask)).map
        (fun p => (dist.get p.1 p.2, (psd2.get p.1 p.2).getD 0)) := by
  unfold pspecSamples pixels
  change _ = List.map _ (List.filter _ (List.flatMap _ _))
  rw [List.filter_flatMap, List.map_flatMap]
  congr 1
  funext i
  rw [List.filter_map, List.map_map]
  induction (List.range psd2.m) with
  | nil => simp
  | cons j l ih =>
    rw [List.filterMap_cons, ih, List.filter_cons]
    cases h : psd2.get i j with
    | none => simp [selected, h]
    | some v =>
      cases mask with
      | none => simp [selected, h]
      | some a => by_cases ha : a.get i j <;> simp [selected, h, ha]

theorem binned_list (psd2 : Arr2 (Option ℝ)) (dist : Arr2 ℝ) (mask : Option (Arr2 Bool))
    (edges : Arr1 ℝ) (k : ℕ) :
    ((pspecSamples psd2 dist mask).filter (fun s => decide (binOf edges s.1 = some k))).map (·.2)
      = ((pixels psd2.n psd2.m).filter (fun p => selected psd2 mask p &&
          decide (binOf edges (dist.get p.1 p.2) = some k))).map
            (fun p => (psd2.get p.1 p.2).getD 0) := by
  rw [pspecSamples_eq, List.filter_map, List.map_map, List.filter_filter]
  congr 1
  apply List.filter_congr
  intro p _
  simp [Function.comp, Bool.and_comm]

theorem sum_filter_pixels (n m : ℕ) (c : ℕ × ℕ → Bool) (v : ℕ × ℕ → ℝ) :
    (((pixels n m).filter c).map v).sum = ∑ p ∈ (range n ×ˢ range m).filter (fun p => c p = true), v p := by
  rw [← List.sum_toFinset v ((pixels_nodup n m).filter _), List.toFinset_filter, pixels_toFinset]

theorem length_filter_pixels (n m : ℕ) (c : ℕ × ℕ → Bool) (v : ℕ × ℕ → ℝ) :
    (((pixels n m).filter c).map v).length = ((range n ×ˢ range m).filter (fun p => c p = true)).card := by
  rw [List.length_map, ← List.toFinset_card_of_nodup ((pixels_nodup n m).filter _),
    List.toFinset_filter, pixels_toFinset]

/-! ### Frequency grids -/

theorem fftfreq_shift {n i : ℕ} (hi : i < n) :
    ((fftfreq n).fftshift).get i = ((i : ℝ) - (n / 2 : ℕ)) / n := by
  have hn : 0 < n := by omega
  simp only [Arr1.fftshift, Arr1.roll, fftfreq]
  have hc := rollIx_cast hn ((n / 2 : ℕ) : ℤ) i
  rcases Nat.lt_or_ge i (n / 2) with h | h
  · have h1 : ((i : ℤ) - ((n / 2 : ℕ) : ℤ)) % n = i - (n / 2 : ℕ) + n := by
      rw [← Int.add_emod_right, Int.emod_eq_of_lt] <;> omega
    rw [h1] at hc
    have hc' : rollIx n ((n / 2 : ℕ) : ℤ) i = i + n - n / 2 := by omega
    rw [if_neg (by omega), hc', Nat.cast_sub (by omega)]
    push_cast
    ring
  · have h1 : ((i : ℤ) - ((n / 2 : ℕ) : ℤ)) % n = i - (n / 2 : ℕ) := by
      rw [Int.emod_eq_of_lt] <;> omega
    rw [h1] at hc
    have hc' : rollIx n ((n / 2 : ℕ) : ℤ) i = i - n / 2 := by omega
    rw [if_pos (by omega), hc', Nat.cast_sub h]

theorem freqArrays_fst {n m i j : ℕ} (hi : i < n) :
    ((makeRadialFreqArrays n m).1).get i j = (rowFreq n i : ℝ) / n := by
  simp only [makeRadialFreqArrays, Arr2.slice0, resolve_full_rev, rev_ix hi]
  rw [fftfreq_shift (by omega : n - 1 - i < n)]
  have : ((n - 1 - i : ℕ) : ℝ) = n - 1 - i := by
    rw [Nat.cast_sub (by omega), Nat.cast_sub (by omega)]; push_cast; ring
  simp only [rowFreq]
  push_cast [this]
  rfl

theorem freqArrays_snd {n m i j : ℕ} (hj : j < m) :
    ((makeRadialFreqArrays n m).2).get i j = (colFreq m j : ℝ) / m := by
  simp only [makeRadialFreqArrays, Arr2.slice0]
  rw [fftfreq_shift hj]
  simp only [colFreq]
  push_cast
  rfl

theorem freqArrays_shape (n m : ℕ) :
    (makeRadialFreqArrays n m).1.n = n ∧ (makeRadialFreqArrays n m).1.m = m ∧
    (makeRadialFreqArrays n m).2.n = n ∧ (makeRadialFreqArrays n m).2.m = m := by
  simp [makeRadialFreqArrays, Arr2.slice0, resolve_full_rev]

/-! ### min of a list -/

theorem foldl_min_le (l : List ℝ) (x : ℝ) : l.foldl min x ≤ x ∧ ∀ y ∈ l, l.foldl min x ≤ y := by
  induction l generalizing x with
  | nil => simp
  | cons a l ih =>
    simp only [List.foldl_cons]
    obtain ⟨h1, h2⟩ := ih (min x a)
    refine ⟨h1.trans (min_le_left _ _), ?_⟩
    intro y hy
    rcases List.mem_cons.1 hy with rfl | hy
    · exact h1.trans (min_le_right _ _)
    · exact h2 y hy

theorem foldl_min_mem (l : List ℝ) (x : ℝ) : l.foldl min x = x ∨ l.foldl min x ∈ l := by
  induction l generalizing x with
  | nil => simp
  | cons a l ih =>
    simp only [List.foldl_cons]
    rcases ih (min x a) with h | h
    · rw [h]
      rcases min_choice x a with h' | h'
      · left; exact h'
      · right; rw [h']; simp
    · right; exact List.mem_cons_of_mem _ h

theorem foldl_max_ge (l : List ℝ) (x : ℝ) : x ≤ l.foldl max x ∧ ∀ y ∈ l, y ≤ l.foldl max x := by
  induction l generalizing x with
  | nil => simp
  | cons a l ih =>
    simp only [List.foldl_cons]
    obtain ⟨h1, h2⟩ := ih (max x a)
    refine ⟨(le_max_left _ _).trans h1, ?_⟩
    intro y hy
    rcases List.mem_cons.1 hy with rfl | hy
    · exact (le_max_right _ _).trans h1
    · exact h2 y hy

theorem foldl_max_mem (l : List ℝ) (x : ℝ) : l.foldl max x = x ∨ l.foldl max x ∈ l := by
  induction l generalizing x with
  | nil => simp
  | cons a l ih =>
    simp only [List.foldl_cons]
    rcases ih (max x a) with h | h
    · rw [h]
      rcases max_choice x a with h' | h'
      · left; exact h'
      · right; rw [h']; simp
    · right; exact List.mem_cons_of_mem _ h

/-- `npMin` of a list is its least element. -/
theorem npMin_eq {l : List ℝ} {z : ℝ} (hz : z ∈ l) (h : ∀ y ∈ l, z ≤ y) : npMin l = .ok z := by
  cases l with
  | nil => simp at hz
  | cons x xs =>
    simp only [npMin]
    congr 1
    obtain ⟨h1, h2⟩ := foldl_min_le xs x
    apply le_antisymm
    · rcases List.mem_cons.1 hz with rfl | hz
      · exact h1
      · exact h2 z hz
    · rcases foldl_min_mem xs x with h' | h'
      · rw [h']; exact h x (by simp)
      · exact h _ (List.mem_cons_of_mem _ h')

/-- `npMax` of a list is its greatest element. -/
theorem npMax_eq {l : List ℝ} {z : ℝ} (hz : z ∈ l) (h : ∀ y ∈ l, y ≤ z) : npMax l = .ok z := by
  cases l with
  | nil => simp at hz
  | cons x xs =>
    simp only [npMax]
    congr 1
    obtain ⟨h1, h2⟩ := foldl_max_ge xs x
    apply le_antisymm
    · rcases foldl_max_mem xs x with h' | h'
      · rw [h']; exact h x (by simp)
      · exact h _ (List.mem_cons_of_mem _ h')
    · rcases List.mem_cons.1 hz with rfl | hz
      · exact h1
      · exact h2 z hz

theorem npMax_spec {l : List ℝ} {z : ℝ} (h : npMax l = .ok z) : z ∈ l ∧ ∀ y ∈ l, y ≤ z := by
  cases l with
  | nil => simp [npMax] at h
  | cons x xs =>
    simp only [npMax, Except.ok.injEq] at h
    subst h
    obtain ⟨h1, h2⟩ := foldl_max_ge xs x
    constructor
    · rcases foldl_max_mem xs x with h' | h'
      · rw [h']; simp
      · exact List.mem_cons_of_mem _ h'
    · intro y hy
      rcases List.mem_cons.1 hy with rfl | hy
      · exact h1
      · exact h2 y hy

theorem npMin_spec {l : List ℝ} {z : ℝ} (h : npMin l = .ok z) : z ∈ l ∧ ∀ y ∈ l, z ≤ y := by
  cases l with
  | nil => simp [npMin] at h
  | cons x xs =>
    simp only [npMin, Except.ok.injEq] at h
    subst h
    obtain ⟨h1, h2⟩ := foldl_min_le xs x
    constructor
    · rcases foldl_min_mem xs x with h' | h'
      · rw [h']; simp
      · exact List.mem_cons_of_mem _ h'
    · intro y hy
      rcases List.mem_cons.1 hy with rfl | hy
      · exact h1
      · exact h2 y hy

theorem mem_ravel {α : Type*} {a : Arr2 α} {x : α} :
    x ∈ a.ravel ↔ ∃ i < a.n, ∃ j < a.m, a.get i j = x := by
  simp [Arr2.ravel, List.mem_flatMap]

/-! ### Distance array -/

theorem sqrt_freq_zero {n m : ℕ} {k l : ℤ} (hn : 0 < n) (hm : 0 < m) :
    Real.sqrt (((k : ℝ) / n) ^ 2 + ((l : ℝ) / m) ^ 2) = 0 ↔ k = 0 ∧ l = 0 := by
  have hn' : (n : ℝ) ≠ 0 := by positivity
  have hm' : (m : ℝ) ≠ 0 := by positivity
  rw [Real.sqrt_eq_zero (by positivity)]
  constructor
  · intro h
    have h1 : ((k : ℝ) / n) ^ 2 = 0 := by nlinarith [sq_nonneg ((k : ℝ) / n), sq_nonneg ((l : ℝ) / m)]
    have h2 : ((l : ℝ) / m) ^ 2 = 0 := by nlinarith [sq_nonneg ((k : ℝ) / n), sq_nonneg ((l : ℝ) / m)]
    rw [pow_eq_zero_iff (by norm_num), div_eq_zero_iff] at h1 h2
    simp only [hn', hm', or_false] at h1 h2
    exact_mod_cast And.intro h1 h2
  · rintro ⟨rfl, rfl⟩; simp

theorem freqDist_spec {n m : ℕ} (hn : 0 < n) (hm : 0 < m) (h2 : 2 ≤ max n m) :
    ∃ d, freqDist n m = .ok d ∧ d.n = n ∧ d.m = m ∧
      ∀ i < n, ∀ j < m, d.get i j = freqRadius n m i j := by
  obtain ⟨s1, s2, s3, s4⟩ := freqArrays_shape n m
  set g := makeRadialFreqArrays n m with hg
  set d0 := hypotArr g.1 g.2 with hd0
  have hget : ∀ i < n, ∀ j < m,
      d0.get i j = Real.sqrt (((rowFreq n i : ℝ) / n) ^ 2 + ((colFreq m j : ℝ) / m) ^ 2) := by
    intro i hi j hj
    simp only [hd0, hypotArr]
    rw [hg, freqArrays_fst hi, freqArrays_snd hj]
  have hsh : d0.n = n ∧ d0.m = m := ⟨s1, s2⟩
  have hmax0 : (0 : ℝ) < (max n m : ℕ) := by
    have : 0 < max n m := by omega
    exact_mod_cast this
  -- the least non-zero distance
  have hmin : npMin (d0.ravel.filter (fun x => decide (x ≠ 0))) = .ok (1 / (max n m : ℕ)) := by
    apply npMin_eq
    · rw [List.mem_filter, mem_ravel, hsh.1, hsh.2]
      refine ⟨?_, ?_⟩
      · rcases le_total m n with h | h
        · rw [max_eq_left h] at h2 ⊢
          refine ⟨n - n / 2, by omega, m / 2, by omega, ?_⟩
          rw [hget _ (by omega) _ (by omega)]
          have e1 : rowFreq n (n - n / 2) = -1 := by simp only [rowFreq]; omega
          have e2 : colFreq m (m / 2) = 0 := by simp [colFreq]
          rw [e1, e2]
          have : (((-1 : ℤ) : ℝ) / n) ^ 2 + (((0 : ℤ) : ℝ) / m) ^ 2 = (1 / (n : ℝ)) ^ 2 := by
            push_cast; ring
          rw [this, Real.sqrt_sq (by positivity)]
        · rw [max_eq_right h] at h2 ⊢
          refine ⟨n - 1 - n / 2, by omega, m / 2 - 1, by omega, ?_⟩
          rw [hget _ (by omega) _ (by omega)]
          have e1 : rowFreq n (n - 1 - n / 2) = 0 := by simp only [rowFreq]; omega
          have e2 : colFreq m (m / 2 - 1) = -1 := by simp only [colFreq]; omega
          rw [e1, e2]
          have : (((0 : ℤ) : ℝ) / n) ^ 2 + (((-1 : ℤ) : ℝ) / m) ^ 2 = (1 / (m : ℝ)) ^ 2 := by
            push_cast; ring
          rw [this, Real.sqrt_sq (by positivity)]
      · simp only [decide_eq_true_eq]; positivity
    · intro y hy
      rw [List.mem_filter, mem_ravel, hsh.1, hsh.2] at hy
      obtain ⟨⟨i, hi, j, hj, rfl⟩, hne⟩ := hy
      rw [hget i hi j hj] at hne ⊢
      simp only [decide_eq_true_eq, ne_eq] at hne
      rw [sqrt_freq_zero hn hm] at hne
      apply Real.le_sqrt_of_sq_le
      have key : ∀ (k : ℤ) (q : ℕ), 0 < q → q ≤ max n m → k ≠ 0 →
          (1 / ((max n m : ℕ) : ℝ)) ^ 2 ≤ ((k : ℝ) / q) ^ 2 := by
        intro k q hq hqm hk
        have hk1 : (1 : ℝ) ≤ (k : ℝ) ^ 2 := by
          have : (1 : ℤ) ≤ k ^ 2 := by
            have := sq_nonneg k
            have h0 : k ^ 2 ≠ 0 := pow_ne_zero 2 hk
            omega
          exact_mod_cast this
        have hq' : (0 : ℝ) < q := by exact_mod_cast hq
        have hqm' : (q : ℝ) ≤ (max n m : ℕ) := by exact_mod_cast hqm
        rw [div_pow, div_pow, one_pow]
        apply div_le_div₀ (by positivity) hk1 (by positivity)
        exact pow_le_pow_left₀ hq'.le hqm' 2
      by_cases hk : rowFreq n i = 0
      · have hl : colFreq m j ≠ 0 := fun h => hne ⟨hk, h⟩
        have := key _ m hm (le_max_right _ _) hl
        nlinarith [sq_nonneg ((rowFreq n i : ℝ) / n)]
      · have := key _ n hn (le_max_left _ _) hk
        nlinarith [sq_nonneg ((colFreq m j : ℝ) / m)]
  refine ⟨d0.map (fun x => if x = 0 then (1 / (max n m : ℕ)) / 2 else x), ?_, hsh.1, hsh.2, ?_⟩
  · simp only [freqDist, ← hg, ← hd0, hmin]
    rfl
  · intro i hi j hj
    simp only [Arr2.map, hget i hi j hj, freqRadius, sqrt_freq_zero hn hm]
    split
    · field_simp
    · rfl

/-! ### Wedges -/

theorem wrapAtPi_mem (x : ℝ) : -Real.pi ≤ wrapAtPi x ∧ wrapAtPi x < Real.pi := by
  have hp := Real.pi_pos
  have h1 := Int.floor_le ((x + Real.pi) / (2 * Real.pi))
  have h2 := Int.lt_floor_add_one ((x + Real.pi) / (2 * Real.pi))
  unfold wrapAtPi
  rw [le_div_iff₀ (by positivity)] at h1
  rw [div_lt_iff₀ (by positivity)] at h2
  constructor <;> nlinarith

theorem wrapAtPi_unique {x y : ℝ} {k : ℤ} (h : y = x - 2 * Real.pi * k) (h1 : -Real.pi ≤ y)
    (h2 : y < Real.pi) : wrapAtPi x = y := by
  have hp := Real.pi_pos
  have : ⌊(x + Real.pi) / (2 * Real.pi)⌋ = k := by
    rw [Int.floor_eq_iff]
    constructor
    · rw [le_div_iff₀ (by positivity)]; nlinarith
    · rw [div_lt_iff₀ (by positivity)]; nlinarith
  rw [wrapAtPi, this, h]

theorem inWedge_iff {theta0 delta t : ℝ} (hd0 : 0 < delta) (hd1 : delta < 2 * Real.pi)
    (ht0 : -Real.pi < t) (ht1 : t ≤ Real.pi)
    (hb : t ≠ Real.pi ∨ wrapAtPi (theta0 - 0.5 * delta) ≠ -Real.pi) :
    inWedge theta0 delta t = true ↔ AngWithin theta0 delta t := by
  have hp := Real.pi_pos
  set l0 := wrapAtPi (theta0 - 0.5 * delta) with hl0
  obtain ⟨p0, p1⟩ := wrapAtPi_mem (theta0 - 0.5 * delta)
  rw [← hl0] at p0 p1
  obtain ⟨p, hpdef⟩ : ∃ p : ℤ, l0 = theta0 - 0.5 * delta - 2 * Real.pi * p := ⟨_, rfl⟩
  have hang : AngWithin theta0 delta t ↔
      ∃ k : ℤ, l0 ≤ t + 2 * Real.pi * k ∧ t + 2 * Real.pi * k ≤ l0 + delta := by
    constructor
    · rintro ⟨k, hk⟩
      rw [abs_le] at hk
      refine ⟨k - p, ?_, ?_⟩ <;> push_cast <;> nlinarith [hk.1, hk.2]
    · rintro ⟨k, h1, h2⟩
      refine ⟨k + p, ?_⟩
      rw [abs_le]
      constructor <;> push_cast <;> nlinarith
  have hstrict : ∀ k : ℤ, k ≤ -1 → ¬ (l0 ≤ t + 2 * Real.pi * k) := by
    intro k hk h
    have hk' : (k : ℝ) ≤ -1 := by exact_mod_cast hk
    have h3 : t + 2 * Real.pi * k ≤ t - 2 * Real.pi := by nlinarith
    rcases hb with hb | hb
    · have : t < Real.pi := lt_of_le_of_ne ht1 hb
      linarith
    · have : -Real.pi < l0 := lt_of_le_of_ne p0 (Ne.symm hb)
      linarith
  rw [hang]
  by_cases hc : l0 + delta < Real.pi
  · have hl1 : wrapAtPi (theta0 + 0.5 * delta) = l0 + delta := by
      apply wrapAtPi_unique (k := p)
      · rw [hpdef]; ring
      · linarith
      · exact hc
    simp only [inWedge, ← hl0, hl1]
    rw [if_pos (by linarith)]
    simp only [Bool.and_eq_true, decide_eq_true_eq]
    constructor
    · rintro ⟨h1, h2⟩
      exact ⟨0, by simpa using h1, by simpa using h2⟩
    · rintro ⟨k, h1, h2⟩
      have hk0 : 0 ≤ k := by
        by_contra hneg
        exact hstrict k (by omega) h1
      have hk1 : k < 1 := by
        by_contra hpos
        have : (1 : ℝ) ≤ k := by exact_mod_cast (not_lt.1 hpos)
        nlinarith
      have : k = 0 := by omega
      subst this
      simpa using And.intro h1 h2
  · push Not at hc
    have hl1 : wrapAtPi (theta0 + 0.5 * delta) = l0 + delta - 2 * Real.pi := by
      apply wrapAtPi_unique (k := p + 1)
      · rw [hpdef]; push_cast; ring
      · linarith
      · linarith
    simp only [inWedge, ← hl0, hl1]
    rw [if_neg (by linarith)]
    simp only [Bool.or_eq_true, decide_eq_true_eq]
    constructor
    · rintro (h1 | h2)
      · exact ⟨0, by simpa using h1, by push_cast; linarith⟩
      · refine ⟨1, ?_, ?_⟩ <;> push_cast <;> linarith
    · rintro ⟨k, h1, h2⟩
      have hk0 : 0 ≤ k := by
        by_contra hneg
        exact hstrict k (by omega) h1
      have hk2 : k < 2 := by
        by_contra hpos
        have : (2 : ℝ) ≤ k := by exact_mod_cast (not_lt.1 hpos)
        nlinarith
      have : k = 0 ∨ k = 1 := by omega
      rcases this with rfl | rfl
      · left; simpa using h1
      · right; push_cast at h2; linarith

/-- The middle block of one axis: indices `n/2 - 1` and `n/2`. -/
theorem mid_find {n i : ℕ} (hi : i < n) :
    (((PySlice.mk (some (((n / 2 : ℕ) : ℤ) - 1)) (some (((n / 2 : ℕ) : ℤ) + 1)) 1).resolve n).find i).isSome
      = decide (i = n / 2 ∨ i + 1 = n / 2) := by
  have hr : (PySlice.mk (some (((n / 2 : ℕ) : ℤ) - 1)) (some (((n / 2 : ℕ) : ℤ) + 1)) 1).resolve n
      = if n = 1 then ⟨0, 1, 1⟩ else ⟨((n / 2 : ℕ) : ℤ) - 1, 1, 2⟩ := by
    split
    · rename_i h; subst h; rfl
    · rename_i h
      simp only [PySlice.resolve, adjustIx]
      have h1 : ¬ (((n / 2 : ℕ) : ℤ) - 1 < 0) := by omega
      have h2 : ¬ ((n : ℤ) ≤ ((n / 2 : ℕ) : ℤ) - 1) := by omega
      have h3 : ¬ (((n / 2 : ℕ) : ℤ) + 1 < 0) := by omega
      by_cases h4 : (n : ℤ) ≤ ((n / 2 : ℕ) : ℤ) + 1
      · have : n = 2 := by omega
        subst this; rfl
      · simp only [h1, h2, h3, h4, if_false]
        norm_num
        omega
  rw [hr]
  split
  · rename_i h
    subst h
    have : i = 0 := by omega
    subst this
    rfl
  · rw [SliceIx.find_step_one rfl (by simp; omega)]
    simp only
    split
    · rename_i h; simp at h ⊢; omega
    · rename_i h; simp at h ⊢; omega

theorem azimMask_get {n m i j : ℕ} (hi : i < n) (hj : j < m) (t d : ℝ) :
    (azimMask n m t d).get i j = true ↔
      ((i = n / 2 ∨ i + 1 = n / 2) ∧ (j = m / 2 ∨ j + 1 = m / 2)) ∨
      inWedge t d ((thetaArr n m).get i j) = true ∨
      inWedge t d ((thetaArr n m).get (n - 1 - i) (m - 1 - j)) = true := by
  simp only [azimMask, mid_find hi, mid_find hj, Arr2.slice1, Arr2.slice0, Arr2.map, thetaArr,
    resolve_full_rev, rev_ix hi, rev_ix hj]
  by_cases h1 : (i = n / 2 ∨ i + 1 = n / 2) <;> by_cases h2 : (j = m / 2 ∨ j + 1 = m / 2) <;>
    simp [h1, h2]

end TS
