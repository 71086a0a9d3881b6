import Verif.Model.Tsallis
import Verif.Props.C23
import Verif.Props.C18
import Verif.Lemmas.Slices
import Verif.Np.Dft
import Mathlib.Tactic.Linarith
import Mathlib.Tactic.Positivity
import Mathlib.Tactic.FieldSimp
import Mathlib.Tactic.IntervalCases

/-! C41 — Tsallis increments, their distribution and the fitted function. -/

namespace TS
open Finset

namespace Spec

/-- The image continued periodically to the whole plane. -/
def periodicExt (img : Arr2 (Option ℝ)) (i j : ℤ) : Option ℝ :=
  img.get (i % img.n).toNat (j % img.m).toNat

/-- The image continued by zeros to the whole plane. -/
noncomputable def zeroExt (img : Arr2 (Option ℝ)) (i j : ℤ) : Option ℝ :=
  if 0 ≤ i ∧ i < img.n ∧ 0 ≤ j ∧ j < img.m then img.get i.toNat j.toNat else some 0

/-- Average of the four neighbours at distance `l`, minus the pixel; missing if one of the five is. -/
noncomputable def increment (z : ℤ → ℤ → Option ℝ) (l i j : ℤ) : Option ℝ := do
  let a ← z (i - l) j
  let b ← z (i + l) j
  let c ← z i (j - l)
  let d ← z i (j + l)
  let x ← z i j
  return (a + b + c + d) / 4 - x

end Spec

private theorem incr_eq (a b c d x : Option ℝ) :
    subO (divO (addO (addO (addO a b) c) d) (some 4)) x = (do
      let a ← a
      let b ← b
      let c ← c
      let d ← d
      let x ← x
      return (a + b + c + d) / 4 - x) := by
  cases a <;> cases b <;> cases c <;> cases d <;> cases x <;> simp [subO, divO, addO]

/-- Periodic boundaries: every pixel of the lag map is the four-neighbour average minus the pixel, on the
periodically continued image. -/
theorem C41_periodic (junk : ℕ → ℕ → Option ℝ) (lag : ℕ) (img : Arr2 (Option ℝ)) :
    let r := tsallisMap junk true lag img
    r.n = img.n ∧ r.m = img.m ∧ ∀ i < img.n, ∀ j < img.m,
      r.get i j = Spec.increment (Spec.periodicExt img) lag i j := by
  refine ⟨rfl, rfl, ?_⟩
  intro i hi j hj
  have e0 : ((i : ℤ) % (img.n : ℤ)).toNat = i := by
    rw [Int.emod_eq_of_lt (by omega) (by omega)]; simp
  have e1 : ((j : ℤ) % (img.m : ℤ)).toNat = j := by
    rw [Int.emod_eq_of_lt (by omega) (by omega)]; simp
  simp only [tsallisMap, rollSum, if_true, Arr2.roll0, Arr2.roll1]
  rw [incr_eq]
  simp only [Spec.increment, Spec.periodicExt, rollIx, sub_neg_eq_add, e0, e1]

private theorem resolve_clip (n p : ℕ) (hp : 0 < p) :
    (⟨some (p : ℤ), some (-(p : ℤ)), 1⟩ : PySlice).resolve (n + 2 * p) = ⟨p, 1, n⟩ := by
  simp only [PySlice.resolve]
  have hd : decide ((1 : ℤ) < 0) = false := by decide
  rw [hd, adjustIx_inside (by omega) (by push_cast; omega)]
  have : adjustIx ((n + 2 * p : ℕ) : ℤ) false (-(p : ℤ)) = n + p := by
    unfold adjustIx
    rw [if_pos (by omega), if_neg (by push_cast; omega)]
    push_cast; ring
  rw [this]
  simp only [if_false, Bool.false_eq_true, Int.ediv_one]
  congr 1
  split_ifs <;> omega

/-- Other boundaries: the same with the image continued by zeros. -/
theorem C41_zero_padded (junk : ℕ → ℕ → Option ℝ) (lag : ℕ) (hl : 0 < lag) (img : Arr2 (Option ℝ)) :
    let r := tsallisMap junk false lag img
    r.n = img.n ∧ r.m = img.m ∧ ∀ i < img.n, ∀ j < img.m,
      r.get i j = Spec.increment (Spec.zeroExt img) lag i j := by
  intro r
  obtain ⟨hn, hm, hin, hout⟩ := C23_pad_image junk (some (0 : ℝ)) img lag hl
  set pad := npPad2 junk (padWith (some (0 : ℝ))) img lag with hpad
  have hr : r = (let s : PySlice := ⟨some lag, some (-(lag : ℤ)), 1⟩
      let q := ((rollSum pad lag).slice0 s).slice1 s
      let p := (pad.slice0 s).slice1 s
      ⟨q.n, q.m, fun i j => subO (divO (q.get i j) (some 4)) (p.get i j)⟩) := by
    simp only [r, tsallisMap, Bool.false_eq_true, if_false, ← hpad]
  have rn := resolve_clip img.n lag hl
  have rm := resolve_clip img.m lag hl
  have hs0 : (rollSum pad lag).n = img.n + 2 * lag := hn
  have hs1 : (rollSum pad lag).m = img.m + 2 * lag := hm
  have val : ∀ a b : ℤ, 0 ≤ a → a < img.n + 2 * lag → 0 ≤ b → b < img.m + 2 * lag →
      pad.get a.toNat b.toNat = Spec.zeroExt img (a - lag) (b - lag) := by
    intro a b h1 h2 h3 h4
    unfold Spec.zeroExt
    split_ifs with h
    · have := hin (a - lag).toNat (by omega) (b - lag).toNat (by omega)
      rw [← this]
      congr 1 <;> omega
    · apply hout
      · rw [hn]; omega
      · rw [hm]; omega
      · omega
  have nowrap : ∀ (N : ℕ) (i : ℕ) (s : ℤ), 0 ≤ (i : ℤ) - s → (i : ℤ) - s < N → rollIx N s i = ((i : ℤ) - s).toNat := by
    intro N i s h1 h2
    unfold rollIx
    rw [Int.emod_eq_of_lt h1 h2]
  rw [hr]
  simp only [Arr2.slice0, Arr2.slice1, hs0, hs1, hn, hm, rn, rm]
  refine ⟨trivial, trivial, ?_⟩
  intro i hi j hj
  simp only [SliceIx.ix, one_mul, rollSum, Arr2.roll0, Arr2.roll1, hn, hm]
  rw [incr_eq]
  have i0 : ((lag : ℤ) + (i : ℤ)).toNat = lag + i := by omega
  have j0 : ((lag : ℤ) + (j : ℤ)).toNat = lag + j := by omega
  rw [i0, j0, nowrap _ _ _ (by push_cast; omega) (by push_cast; omega), nowrap _ _ _ (by push_cast; omega) (by push_cast; omega),
    nowrap _ _ _ (by push_cast; omega) (by push_cast; omega), nowrap _ _ _ (by push_cast; omega) (by push_cast; omega)]
  unfold Spec.increment
  have v1 := val (((lag + i : ℕ) : ℤ) - lag) ((lag + j : ℕ) : ℤ) (by push_cast; omega) (by push_cast; omega) (by omega) (by push_cast; omega)
  have v2 := val (((lag + i : ℕ) : ℤ) - -(lag : ℤ)) ((lag + j : ℕ) : ℤ) (by push_cast; omega) (by push_cast; omega) (by omega) (by push_cast; omega)
  have v3 := val ((lag + i : ℕ) : ℤ) (((lag + j : ℕ) : ℤ) - lag) (by omega) (by push_cast; omega) (by push_cast; omega) (by push_cast; omega)
  have v4 := val ((lag + i : ℕ) : ℤ) (((lag + j : ℕ) : ℤ) - -(lag : ℤ)) (by omega) (by push_cast; omega) (by push_cast; omega) (by push_cast; omega)
  have v5 := val ((lag + i : ℕ) : ℤ) ((lag + j : ℕ) : ℤ) (by omega) (by push_cast; omega) (by omega) (by push_cast; omega)
  simp only [Int.toNat_natCast] at v1 v2 v3 v4 v5
  rw [v1, v2, v3, v4, v5]
  have a1 : ((lag + i : ℕ) : ℤ) - lag - lag = i - lag := by push_cast; ring
  have a2 : ((lag + j : ℕ) : ℤ) - lag = j := by push_cast; ring
  have a3 : ((lag + i : ℕ) : ℤ) - -(lag : ℤ) - lag = i + lag := by push_cast; ring
  have a4 : ((lag + i : ℕ) : ℤ) - lag = i := by push_cast; ring
  have a5 : ((lag + j : ℕ) : ℤ) - lag - lag = j - lag := by push_cast; ring
  have a6 : ((lag + j : ℕ) : ℤ) - -(lag : ℤ) - lag = j + lag := by push_cast; ring
  rw [a1, a2, a3, a4, a6]

/-- Periodic boundaries: a constant image gives a zero lag map; an offset changes nothing (also with
missing pixels). -/
theorem C41_offset (junk : ℕ → ℕ → Option ℝ) (lag : ℕ) (img : Arr2 (Option ℝ)) (a : ℝ) :
    (tsallisMap junk true lag (img.map (Option.map (· + a)))).Same (tsallisMap junk true lag img) ∧
    ((∀ i < img.n, ∀ j < img.m, img.get i j = some a) →
      ∀ i < img.n, ∀ j < img.m, (tsallisMap junk true lag img).get i j = some 0) := by
  obtain ⟨h1, h2, h3⟩ := C41_periodic junk lag img
  obtain ⟨g1, g2, g3⟩ := C41_periodic junk lag (img.map (Option.map (· + a)))
  constructor
  · refine ⟨g1.trans h1.symm, g2.trans h2.symm, ?_⟩
    intro i hi j hj
    rw [g1] at hi
    rw [g2] at hj
    rw [g3 i hi j hj, h3 i hi j hj]
    have e : ∀ x y : ℤ, Spec.periodicExt (img.map (Option.map (· + a))) x y =
        (Spec.periodicExt img x y).map (· + a) := fun _ _ => rfl
    unfold Spec.increment
    simp only [e]
    cases Spec.periodicExt img (i - lag) j <;> cases Spec.periodicExt img (i + lag) j <;>
      cases Spec.periodicExt img i (j - lag) <;> cases Spec.periodicExt img i (j + lag) <;>
      cases Spec.periodicExt img i j <;> simp
    ring
  · intro hc i hi j hj
    rw [h3 i hi j hj]
    have e : ∀ x y : ℤ, Spec.periodicExt img x y = some a := by
      intro x y
      apply hc
      · have := Int.emod_lt_of_pos x (by omega : (0 : ℤ) < img.n)
        have := Int.emod_nonneg x (by omega : (img.n : ℤ) ≠ 0)
        omega
      · have := Int.emod_lt_of_pos y (by omega : (0 : ℤ) < img.m)
        have := Int.emod_nonneg y (by omega : (img.m : ℤ) ≠ 0)
        omega
    unfold Spec.increment
    simp only [e, bind, Option.bind, pure]
    congr 1
    ring

/-- Periodic boundaries, nothing missing: the lag map sums to zero. -/
theorem C41_sum_zero (junk : ℕ → ℕ → Option ℝ) (lag : ℕ) (n m : ℕ) (x : ℕ → ℕ → ℝ) :
    (tsallisMap junk true lag ⟨n, m, fun i j => some (x i j)⟩).nansum = 0 := by
  have hv : ∀ i j, ((tsallisMap junk true lag ⟨n, m, fun i j => some (x i j)⟩).get i j).getD 0 =
      (x (rollIx n lag i) j + x (rollIx n (-(lag : ℤ)) i) j + x i (rollIx m lag j) +
        x i (rollIx m (-(lag : ℤ)) j)) / 4 - x i j := by
    intro i j
    simp [tsallisMap, rollSum, Arr2.roll0, Arr2.roll1, addO, divO, subO]
  unfold Arr2.nansum
  show ∑ i ∈ range n, ∑ j ∈ range m, _ = _
  simp only [hv]
  rcases Nat.eq_zero_or_pos n with rfl | hn
  · simp
  rcases Nat.eq_zero_or_pos m with rfl | hm
  · simp
  have s1 : ∀ s : ℤ, ∑ i ∈ range n, ∑ j ∈ range m, x (rollIx n s i) j = ∑ i ∈ range n, ∑ j ∈ range m, x i j :=
    fun s => sum_rollIx hn s (fun i => ∑ j ∈ range m, x i j)
  have s2 : ∀ s : ℤ, ∑ i ∈ range n, ∑ j ∈ range m, x i (rollIx m s j) = ∑ i ∈ range n, ∑ j ∈ range m, x i j :=
    fun s => sum_congr rfl (fun i _ => sum_rollIx hm s (fun j => x i j))
  simp only [sum_sub_distrib, ← sum_div, sum_add_distrib, s1, s2]
  ring

/-- Away from periodic boundaries a constant image is not mapped to zero: the edge pixels see the zeros
outside. -/
theorem C41_edge_increments (junk : ℕ → ℕ → Option ℝ) : ∃ img : Arr2 (Option ℝ),
    (∀ i < img.n, ∀ j < img.m, img.get i j = some 4) ∧ (tsallisMap junk false 1 img).get 0 0 = some (-2) := by
  refine ⟨⟨2, 2, fun _ _ => some 4⟩, fun _ _ _ _ => rfl, ?_⟩
  rw [(C41_zero_padded junk 1 (by norm_num) ⟨2, 2, fun _ _ => some 4⟩).2.2 0 (by norm_num) 0 (by norm_num)]
  norm_num [Spec.increment, Spec.zeroExt]

/-- A map without variation (a constant image) cannot be standardised: every value, every probability is
NaN. -/
theorem C41_constant_undefined (junk : ℕ → ℕ → Option ℝ) (num : Option ℕ) (lag : ℕ) (img : Arr2 (Option ℝ))
    (a : ℝ) (hc : ∀ i < img.n, ∀ j < img.m, img.get i j = some a) (data : List (Option ℝ)) (d : TsallisDist)
    (h : makeTsallisAt junk true num lag img = .ok (data, d)) :
    (∀ v ∈ data, v = none) ∧ ∀ k, d.prob.get k = none := by
  have hz := (C41_offset junk lag img a).2 hc
  have hdata : ∀ v ∈ standardize (tsallisMap junk true lag img).ravel, v = none := by
    have hr : ∀ v ∈ (tsallisMap junk true lag img).ravel, v = some 0 := by
      intro v hv
      unfold Arr2.ravel at hv
      rw [List.mem_flatMap] at hv
      obtain ⟨i, hi, hv⟩ := hv
      rw [List.mem_map] at hv
      obtain ⟨j, hj, rfl⟩ := hv
      exact hz i (List.mem_range.1 hi) j (List.mem_range.1 hj)
    set l := (tsallisMap junk true lag img).ravel
    have hl : l = List.replicate l.length (some 0) := List.eq_replicate_of_mem hr
    intro v hv
    unfold standardize at hv
    rw [List.mem_map] at hv
    obtain ⟨w, hw, rfl⟩ := hv
    have hvv : validVals l = List.replicate l.length 0 := by
      rw [hl]; unfold validVals; simp
    have hlen : 0 < l.length := List.length_pos_of_mem hw
    have hstd : nanstd l = some 0 := by
      unfold nanstd varO meanO
      rw [hvv]
      have : l ≠ [] := List.ne_nil_of_mem hw
      simp [this]
    rw [hstd]
    cases subO w (nanmean l) <;> simp [divO]
  unfold makeTsallisAt tsallisDist at h
  simp only [bind, Except.bind, pure, Except.pure] at h
  have hvv : validVals (standardize (tsallisMap junk true lag img).ravel) = [] := by
    unfold validVals
    rw [List.filterMap_eq_nil_iff]
    intro v hv
    rw [hdata v hv]; rfl
  rw [hvv] at h
  cases he : histEdges (tsallisBins num img) [] with
  | error e => rw [he] at h; simp at h
  | ok e =>
    rw [he] at h
    simp only [Except.ok.injEq, Prod.mk.injEq] at h
    obtain ⟨h1, h2⟩ := h
    subst h1 h2
    refine ⟨hdata, ?_⟩
    intro k
    simp [histCounts, divO]

/-- Whenever the map has variation, the distribution exists over exactly the requested number of bins:
there are increasing edges enclosing the data, the reported positions are the bin centres, each probability
is the fraction of the values lying in that bin, and the probabilities sum to 1. -/
theorem C41_probabilities (nb : ℕ) (hnb : 0 < nb) (data : List (Option ℝ)) (hne : validVals data ≠ []) :
    ∃ (d : TsallisDist) (e : Arr1 ℝ) (p : ℕ → ℝ), tsallisDist nb data = .ok d ∧
      d.centres.n = nb ∧ d.prob.n = nb ∧ e.n = nb + 1 ∧ StrictEdges e ∧
      (∀ x ∈ validVals data, e.get 0 ≤ x ∧ x ≤ e.get nb) ∧
      (∀ k < nb, d.centres.get k = (e.get k + e.get (k + 1)) / 2) ∧
      (∀ k < nb, d.prob.get k = some (p k) ∧ 0 ≤ p k ∧ p k ≤ 1) ∧ ∑ k ∈ range nb, p k = 1 ∧
      ∀ k < nb, ∃ inside : List ℝ, inside.Sublist (validVals data) ∧
        (∀ x ∈ validVals data, x ∈ inside ↔ InBin e k x) ∧
        p k * (validVals data).length = inside.length := by
  obtain ⟨e, he, hn, hs, hin⟩ := histEdges_spec hnb (validVals data)
  have htot := histCounts_total hs (by omega) (validVals data) hin
  have hT : (0 : ℝ) < ((validVals data).length : ℝ) := by
    exact_mod_cast List.length_pos_iff.2 hne
  have hcn : (histCounts e (validVals data)).n = nb := by show e.n - 1 = nb; omega
  have hlast : e.n - 1 = nb := by omega
  refine ⟨⟨⟨e.n - 1, fun k => (e.get k + e.get (k + 1)) / 2⟩,
      ⟨(histCounts e (validVals data)).n, fun k => divO (some ((histCounts e (validVals data)).get k))
        (some ((∑ i ∈ range (histCounts e (validVals data)).n, (histCounts e (validVals data)).get i : ℕ) : ℝ))⟩⟩,
    e, fun k => ((histCounts e (validVals data)).get k : ℝ) / ((validVals data).length : ℝ),
    ?_, hlast, hcn, hn, hs, ?_, fun _ _ => rfl, ?_, ?_, ?_⟩
  · unfold tsallisDist
    simp only [he, bind, Except.bind, pure, Except.pure]
  · rw [← hlast]; exact hin
  · intro k hk
    simp only
    rw [htot]
    refine ⟨?_, by positivity, ?_⟩
    · simp [divO, hne]
    · rw [div_le_one hT]
      have : (histCounts e (validVals data)).get k ≤
          ∑ i ∈ range (histCounts e (validVals data)).n, (histCounts e (validVals data)).get i :=
        single_le_sum (f := fun i => (histCounts e (validVals data)).get i) (fun i _ => Nat.zero_le _)
          (mem_range.2 (by rw [hcn]; exact hk))
      rw [htot] at this
      exact_mod_cast this
  · rw [← sum_div, div_eq_one_iff_eq hT.ne', ← htot, hcn]
    push_cast
    rfl
  · intro k _
    refine ⟨(validVals data).filter (fun x => decide (binOf e x = some k)), List.filter_sublist, ?_, ?_⟩
    · intro x hx
      rw [List.mem_filter, decide_eq_true_eq, binOf_eq_some_iff hs (by omega)]
      exact ⟨fun h => h.2, fun h => ⟨hx, h⟩⟩
    · show ((histCounts e (validVals data)).get k : ℝ) / _ * _ = _
      rw [div_mul_cancel₀ _ hT.ne']
      rfl

/-- The whole step for one lag, for every image whose lag map holds two different values: it succeeds; the
stored map is missing exactly where the lag map is and has mean 0 and standard deviation 1; the distribution
has the requested number of bins (by default the square root of the number of finite pixels, rounded up)
and its probabilities sum to 1. -/
theorem C41_make (junk : ℕ → ℕ → Option ℝ) (periodic : Bool) (num : Option ℕ) (lag : ℕ) (img : Arr2 (Option ℝ)) (a b : ℝ) (hab : a ≠ b)
    (ha : some a ∈ (tsallisMap junk periodic lag img).ravel) (hb : some b ∈ (tsallisMap junk periodic lag img).ravel)
    (nb : ℕ) (hnb : 0 < nb) (h : num = some nb ∨ num = none ∧
      nb = ⌈Real.sqrt (#{q ∈ range img.n ×ˢ range img.m | (img.get q.1 q.2).isSome} : ℕ)⌉₊) :
    ∃ data d, ∃ p : ℕ → ℝ, makeTsallisAt junk periodic num lag img = .ok (data, d) ∧
      data.map Option.isSome = (tsallisMap junk periodic lag img).ravel.map Option.isSome ∧
      nanmean data = some 0 ∧ nanstd data = some 1 ∧ d.centres.n = nb ∧ d.prob.n = nb ∧
      (∀ k < nb, d.prob.get k = some (p k) ∧ 0 ≤ p k ∧ p k ≤ 1) ∧ ∑ k ∈ range nb, p k = 1 := by
  have hbins : tsallisBins num img = nb := by
    rcases h with rfl | ⟨rfl, rfl⟩
    · rfl
    · unfold tsallisBins Arr2.nFinite
      rw [card_filter, sum_product]
  obtain ⟨s1, s2, s3⟩ := C18_standardize _ a b ha hb hab
  have hne : validVals (standardize (tsallisMap junk periodic lag img).ravel) ≠ [] := by
    intro h0
    unfold nanmean meanO at s2
    rw [h0] at s2
    simp at s2
  obtain ⟨d, e, p, h1, h2, h3, -, -, -, -, h4, h5, -⟩ := C41_probabilities nb hnb _ hne
  refine ⟨_, d, p, ?_, s1, s2, s3, h2, h3, h4, h5⟩
  unfold makeTsallisAt
  simp only [hbins, h1, bind, Except.bind, pure, Except.pure]

/-- The fitted function is even, has its maximum `-log A / (q - 1)` at 0 and decreases with `|x|`
(for `q > 1`, `w² > 0`). -/
theorem C41_function (x loga w2 q : ℝ) :
    tsallisFunction (-x) loga w2 q = tsallisFunction x loga w2 q ∧
    (q ≠ 1 → w2 ≠ 0 → tsallisFunction 0 loga w2 q = -loga / (q - 1)) ∧
    (1 < q → 0 < w2 → ∀ y, |x| < |y| → tsallisFunction y loga w2 q < tsallisFunction x loga w2 q) := by
  refine ⟨?_, ?_, ?_⟩
  · unfold tsallisFunction
    rw [show (-x) ^ 2 = x ^ 2 by ring]
  · intro _ _
    unfold tsallisFunction log10
    simp
    ring
  · intro hq hw y hxy
    have hq' : 0 < q - 1 := by linarith
    have h2 : x ^ 2 < y ^ 2 := sq_lt_sq.2 hxy
    have hlt : 1 + (q - 1) * (x ^ 2 / w2) < 1 + (q - 1) * (y ^ 2 / w2) := by
      have := div_lt_div_of_pos_right h2 hw
      nlinarith
    have hpos : 0 < 1 + (q - 1) * (x ^ 2 / w2) := by positivity
    unfold tsallisFunction log10
    have hl := Real.logb_lt_logb (by norm_num : (1 : ℝ) < 10) hpos hlt
    have hneg : -1 / (q - 1) < 0 := div_neg_of_neg_of_pos (by norm_num) hq'
    exact mul_lt_mul_of_neg_left (by linarith) hneg

/-- `clip_to_sigma` keeps the pairs that are finite and whose *second* coordinate (the log-probability)
lies within ±sigma. -/
theorem C41_clip (sigma : ℝ) (xy : List (Option ℝ × Option ℝ)) (x y : ℝ) :
    (x, y) ∈ clipToSigma sigma xy ↔ (some x, some y) ∈ xy ∧ |y| < sigma := by
  unfold clipToSigma
  rw [List.mem_filterMap, abs_lt]
  constructor
  · rintro ⟨⟨a, b⟩, hm, h⟩
    cases a with
    | none => simp at h
    | some a =>
      cases b with
      | none => simp at h
      | some b =>
        simp only [Option.ite_none_right_eq_some, Option.some.injEq, Prod.mk.injEq] at h
        obtain ⟨h1, rfl, rfl⟩ := h
        exact ⟨hm, h1.2, h1.1⟩
  · rintro ⟨hm, h1, h2⟩
    exact ⟨_, hm, by simp [h1, h2]⟩

/-- So increments far outside ±sigma standard deviations are kept for the fit. -/
theorem C41_clip_keeps_outliers : (100, -3) ∈ clipToSigma 5 [(some (100 : ℝ), some (-3))] := by
  rw [C41_clip]; norm_num

/-- Non-vacuity: an image whose lag map varies. -/
example : validVals [some (1 : ℝ), none, some 2] ≠ [] := by simp [validVals]
example (junk : ℕ → ℕ → Option ℝ) : ∃ img : Arr2 (Option ℝ), some 1 ∈ (tsallisMap junk true 1 img).ravel ∧
    some (-1) ∈ (tsallisMap junk true 1 img).ravel := by
  refine ⟨⟨1, 2, fun _ j => some (if j = 0 then 0 else 2)⟩, ?_, ?_⟩ <;>
    simp [tsallisMap, rollSum, Arr2.ravel, Arr2.roll0, Arr2.roll1, List.range_succ, addO, subO, divO, rollIx] <;> norm_num

end TS
