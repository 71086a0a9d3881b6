import Verif.Model.ThreeDToTwoD
import Mathlib.Tactic.NormNum
import Mathlib.Data.List.GetD
import Mathlib.Tactic.FieldSimp

/-! C30 — the brightest values of every channel. -/

namespace TS
open Finset

namespace Spec

open Classical in
/-- How many sky pixels of channel `dv` have the value `v`. -/
noncomputable def pixelsWith (cube : Arr3 (Option ℝ)) (dv : ℕ) (v : ℝ) : ℕ :=
  #{q ∈ range cube.m ×ˢ range cube.p | cube.get dv q.1 q.2 = some v}

/-- `v` is above the noise limit (`none`: no limit). -/
def Above (noise : Option ℝ) (v : ℝ) : Prop := ∀ l, noise = some l → l < v

open Classical in
/-- `row` holds the `len` brightest of the values of channel `dv` above the noise limit, brightest first,
followed by zeros when there are fewer: the values above the limit are split into `top` and `rest`. -/
def Brightest (cube : Arr3 (Option ℝ)) (noise : Option ℝ) (dv len : ℕ) (row : ℕ → ℝ) : Prop :=
  ∃ top rest : List ℝ,
    (∀ v, (top ++ rest).count v = if Above noise v then pixelsWith cube dv v else 0) ∧
    top.length = min len (top.length + rest.length) ∧
    (∀ a ∈ top, ∀ b ∈ rest, b ≤ a) ∧ top.Pairwise (fun a b => b ≤ a) ∧
    ∀ k < len, row k = if h : k < top.length then top[k] else 0

/-- `M` is the largest valid value of the cube. -/
def CubeMax (cube : Arr3 (Option ℝ)) (M : ℝ) : Prop :=
  (∃ v < cube.n, ∃ i < cube.m, ∃ j < cube.p, cube.get v i j = some M) ∧
  ∀ v < cube.n, ∀ i < cube.m, ∀ j < cube.p, ∀ t, cube.get v i j = some t → t ≤ M

end Spec

theorem mem_channel {α : Type*} {cube : Arr3 α} {dv : ℕ} {x : α} :
    x ∈ cube.channel dv ↔ ∃ i < cube.m, ∃ j < cube.p, cube.get dv i j = x := by
  unfold Arr3.channel
  simp only [List.mem_flatMap, List.mem_range, List.mem_map]

theorem mem_flat {α : Type*} {cube : Arr3 α} {x : α} :
    x ∈ cube.flat ↔ ∃ v < cube.n, ∃ i < cube.m, ∃ j < cube.p, cube.get v i j = x := by
  unfold Arr3.flat
  simp only [List.mem_flatMap, List.mem_range, mem_channel]

private theorem sum_range_list (n : ℕ) (f : ℕ → ℕ) : ((List.range n).map f).sum = ∑ i ∈ range n, f i := by
  induction n with
  | zero => simp
  | succ n ih => rw [List.range_succ, List.map_append, List.sum_append, ih, sum_range_succ]; simp

open Classical in
private theorem count_channel (cube : Arr3 (Option ℝ)) (dv : ℕ) (v : ℝ) :
    (validVals (cube.channel dv)).count v = Spec.pixelsWith cube dv v := by
  have h1 : ∀ l : List (Option ℝ), (validVals l).count v = l.count (some v) := by
    intro l
    induction l with
    | nil => rfl
    | cons a l ih =>
      unfold validVals at *
      cases a with
      | none => rw [List.filterMap_cons_none rfl, ih, List.count_cons]; simp
      | some t =>
        rw [List.filterMap_cons_some (by rfl : id (some t) = some t), List.count_cons, List.count_cons, ih]
        simp
  rw [h1]
  unfold Arr3.channel Spec.pixelsWith
  rw [List.count_flatMap, card_filter, sum_product, sum_range_list]
  refine sum_congr rfl (fun i _ => ?_)
  simp only [Function.comp]
  rw [List.count, List.countP_map, List.countP_eq_length_filter]
  have : ∀ (n : ℕ) (P : ℕ → Bool), ((List.range n).filter P).length = ∑ j ∈ range n, if P j then 1 else 0 := by
    intro n P
    induction n with
    | zero => simp
    | succ n ih =>
      rw [List.range_succ, List.filter_append, List.length_append, ih, sum_range_succ]
      by_cases h : P n <;> simp [h]
  rw [this]
  refine sum_congr rfl (fun j _ => ?_)
  simp only [Function.comp, beq_iff_eq]

theorem sortDesc_perm (l : List ℝ) : (sortDesc l).Perm l := List.perm_insertionSort _ _

theorem sortDesc_pairwise (l : List ℝ) : (sortDesc l).Pairwise (fun a b => b ≤ a) :=
  List.pairwise_insertionSort _ _

open Classical in
theorem count_kept (cube : Arr3 (Option ℝ)) (noise : Option ℝ) (dv : ℕ) (v : ℝ) :
    (keptValues cube noise dv).count v = if Spec.Above noise v then Spec.pixelsWith cube dv v else 0 := by
  unfold keptValues
  split_ifs with h
  · rw [List.count_filter, count_channel]
    cases noise with
    | none => rfl
    | some l => simpa using h l rfl
  · rw [List.count_eq_zero]
    intro hm
    apply h
    rw [List.mem_filter] at hm
    intro l hl
    subst hl
    simpa using hm.2

/-- The brightest values of a channel, sorted, cut or padded. -/
theorem brightest_padOrCut (cube : Arr3 (Option ℝ)) (noise : Option ℝ) (dv len : ℕ) :
    Spec.Brightest cube noise dv len
      (fun k => (padOrCut (sortDesc (keptValues cube noise dv)) len).getD k 0) := by
  classical
  set s := sortDesc (keptValues cube noise dv) with hs
  have hcount : ∀ v, s.count v = if Spec.Above noise v then Spec.pixelsWith cube dv v else 0 := by
    intro v
    rw [(sortDesc_perm _).count_eq, count_kept]
  refine ⟨s.take len, s.drop len, ?_, ?_, ?_, ?_, ?_⟩
  · intro v; rw [List.take_append_drop]; exact hcount v
  · rw [List.length_take, List.length_drop]; omega
  · intro a ha b hb
    have := sortDesc_pairwise (keptValues cube noise dv)
    rw [← hs, ← List.take_append_drop len s, List.pairwise_append] at this
    exact this.2.2 a ha b hb
  · exact (sortDesc_pairwise _).sublist (List.take_sublist _ _)
  · intro k hk
    show (padOrCut s len).getD k 0 = _
    unfold padOrCut
    by_cases h : s.length < len
    · rw [if_pos h]
      by_cases h2 : k < s.length
      · rw [dif_pos (by rw [List.length_take]; omega)]
        rw [List.getD_append _ _ _ _ h2, List.getD_eq_getElem _ _ h2, List.getElem_take]
      · rw [dif_neg (by rw [List.length_take]; omega)]
        rw [List.getD_append_right _ _ _ _ (by omega)]
        simp
    · rw [if_neg h, dif_pos (by rw [List.length_take]; omega),
        List.getD_eq_getElem _ _ (by rw [List.length_take]; omega)]

private theorem nanmax_eq {cube : Arr3 (Option ℝ)} {M : ℝ} (h : Spec.CubeMax cube M) :
    nanmax cube.flat = some M := by
  unfold nanmax
  rw [maxO_eq_some]
  refine ⟨mem_validVals.2 (mem_flat.2 h.1), fun t ht => ?_⟩
  obtain ⟨v, hv, i, hi, j, hj, e⟩ := mem_flat.1 (mem_validVals.1 ht)
  exact h.2 v hv i hi j hj t e

private theorem size_pos {cube : Arr3 (Option ℝ)} {M : ℝ} (h : Spec.CubeMax cube M) :
    cube.n * cube.m * cube.p ≠ 0 := by
  obtain ⟨v, hv, i, hi, j, hj, _⟩ := h.1
  have := Nat.mul_pos (Nat.mul_pos (Nat.zero_lt_of_lt hv) (Nat.zero_lt_of_lt hi)) (Nat.zero_lt_of_lt hj)
  omega

theorem intensity_value_of {cube : Arr3 (Option ℝ)} {M : ℝ} (h : Spec.CubeMax cube M) (hM : M ≠ 0) {p : ℝ}
    (hlen : 0 ≤ npRound (p * cube.m * cube.p)) (noise : Option ℝ) :
    intensityData cube p noise true = .ok ⟨cube.n, (npRound (p * cube.m * cube.p)).toNat, fun dv k =>
      some ((padOrCut (sortDesc (keptValues cube noise dv)) (npRound (p * cube.m * cube.p)).toNat).getD k 0 / M)⟩ := by
  unfold intensityData
  simp only
  rw [if_neg (not_lt.2 hlen), if_neg (fun hh => size_pos h hh.2), nanmax_eq h]
  simp only [if_true]
  rw [if_neg (by simpa using hM)]
  congr 2
  funext dv k
  simp [divO, hM]

/-- Every row of the result has the same length `round(p · pixels)` and holds the brightest values of its
channel above the noise limit, brightest first, filled with zeros, all divided by the maximum of the cube.
Not proved, because it does not hold: channels without values above the limit are not dropped. -/
theorem C30_rows_partial (cube : Arr3 (Option ℝ)) (M p : ℝ) (noise : Option ℝ) (hM : Spec.CubeMax cube M)
    (hM0 : M ≠ 0) (hlen : 0 ≤ npRound (p * cube.m * cube.p)) :
    ∃ out, intensityData cube p noise true = .ok out ∧ out.n = cube.n ∧
      (out.m : ℤ) = npRound (p * cube.m * cube.p) ∧
      ∀ dv < out.n, ∃ row, Spec.Brightest cube noise dv out.m row ∧ ∀ k < out.m, out.get dv k = some (row k / M) := by
  refine ⟨_, intensity_value_of hM hM0 hlen noise, rfl, Int.toNat_of_nonneg hlen, fun dv _ => ⟨_, brightest_padOrCut _ _ _ _, ?_⟩⟩
  intro k _; rfl

/-- With a non-negative noise limit every row is sorted in non-increasing order and lies in [0, 1]. -/
theorem C30_sorted (cube : Arr3 (Option ℝ)) (M p l : ℝ) (hl : 0 ≤ l) (hM : Spec.CubeMax cube M)
    (hM0 : 0 < M) (hlen : 0 ≤ npRound (p * cube.m * cube.p)) :
    ∃ out, intensityData cube p (some l) true = .ok out ∧
      ∀ dv < out.n, ∀ k < out.m, ∃ v, out.get dv k = some v ∧ 0 ≤ v ∧ v ≤ 1 ∧
        ∀ k' < k, ∃ v', out.get dv k' = some v' ∧ v ≤ v' := by
  classical
  obtain ⟨out, ho, hn, _, hrow⟩ := C30_rows_partial cube M p (some l) hM hM0.ne' hlen
  refine ⟨out, ho, fun dv hdv k hk => ?_⟩
  obtain ⟨row, ⟨top, rest, hc, _, _, hsort, hr⟩, hg⟩ := hrow dv hdv
  have htop : ∀ v ∈ top, 0 ≤ v ∧ v ≤ M := by
    intro v hv
    have h1 : 0 < (top ++ rest).count v := List.count_pos_iff.2 (List.mem_append_left _ hv)
    rw [hc v] at h1
    split_ifs at h1 with ha
    · refine ⟨le_trans hl (ha l rfl).le, ?_⟩
      obtain ⟨q, hq⟩ := card_pos.1 h1
      rw [mem_filter, mem_product, mem_range, mem_range] at hq
      exact hM.2 dv (by omega) q.1 hq.1.1 q.2 hq.1.2 v hq.2
    · omega
  have hrow0 : ∀ k < out.m, 0 ≤ row k ∧ row k ≤ M := by
    intro k hk
    rw [hr k hk]
    split_ifs with h
    · exact htop _ (List.getElem_mem h)
    · exact ⟨le_refl _, hM0.le⟩
  refine ⟨row k / M, hg k hk, div_nonneg (hrow0 k hk).1 hM0.le, (div_le_one hM0).2 (hrow0 k hk).2, ?_⟩
  intro k' hk'
  refine ⟨row k' / M, hg k' (by omega), ?_⟩
  apply div_le_div_of_nonneg_right _ hM0.le
  by_cases h : k < top.length
  · rw [hr k hk, hr k' (by omega), dif_pos h, dif_pos (by omega)]
    exact List.pairwise_iff_getElem.1 hsort k' k (by omega) h hk'
  · have : row k = 0 := by rw [hr k hk, dif_neg h]
    rw [this]
    exact (hrow0 k' (by omega)).1

/-- Violation: a channel without any value above the noise limit is kept, as a row of zeros. -/
theorem C30_empty_channels_kept (cube : Arr3 (Option ℝ)) (M p : ℝ) (noise : Option ℝ) (hM : Spec.CubeMax cube M)
    (hM0 : M ≠ 0) (hlen : 0 ≤ npRound (p * cube.m * cube.p)) (dv : ℕ) (hdv : dv < cube.n)
    (hnone : ∀ i < cube.m, ∀ j < cube.p, ∀ t, cube.get dv i j = some t → ¬ Spec.Above noise t) :
    ∃ out, intensityData cube p noise true = .ok out ∧ dv < out.n ∧ ∀ k < out.m, out.get dv k = some 0 := by
  classical
  obtain ⟨out, ho, hn, _, hrow⟩ := C30_rows_partial cube M p noise hM hM0 hlen
  refine ⟨out, ho, by omega, fun k hk => ?_⟩
  obtain ⟨row, ⟨top, rest, hc, _, _, hsort, hr⟩, hg⟩ := hrow dv (by omega)
  have htop : top = [] := by
    rw [List.eq_nil_iff_forall_not_mem]
    intro v hv
    have h1 : 0 < (top ++ rest).count v := List.count_pos_iff.2 (List.mem_append_left _ hv)
    rw [hc v] at h1
    split_ifs at h1 with ha
    · obtain ⟨q, hq⟩ := card_pos.1 h1
      rw [mem_filter, mem_product, mem_range, mem_range] at hq
      exact hnone q.1 hq.1.1 q.2 hq.1.2 v hq.2 ha
    · omega
  subst htop
  rw [hg k hk, hr k hk, dif_neg (by simp)]
  simp

/-- Violation: without a noise limit a row with negative values and padding is not sorted: the zeros
follow the negative values. -/
theorem C30_padding_not_sorted : ∃ (cube : Arr3 (Option ℝ)) (out : Arr2 (Option ℝ)),
    intensityData cube 1 none true = .ok out ∧ 0 < out.n ∧ 1 < out.m ∧
      ∃ a b, out.get 0 0 = some a ∧ out.get 0 1 = some b ∧ a < b := by
  classical
  have hM : Spec.CubeMax (⟨2, 1, 2, fun v _ j => if v = 0 then (if j = 0 then some (-1) else none) else some 1⟩ :
      Arr3 (Option ℝ)) 1 := by
    constructor
    · exact ⟨1, by norm_num, 0, by norm_num, 0, by norm_num, by simp⟩
    · intro v _ i _ j _ t h
      simp only at h
      split_ifs at h
      · injection h with h; linarith
      · injection h with h; linarith
  have hlen : npRound (1 * ((1 : ℕ) : ℝ) * ((2 : ℕ) : ℝ)) = 2 := by
    unfold npRound; norm_num
  refine ⟨_, _, intensity_value_of hM one_ne_zero (p := 1) (by rw [hlen]; norm_num) none, by norm_num, ?_, -1, 0, ?_, ?_, by norm_num⟩
  · simp only; rw [hlen]; norm_num
  all_goals
    simp only
    rw [hlen]
    simp [keptValues, Arr3.channel, validVals, sortDesc, padOrCut, List.range_succ]

/-- A cube and noise limit rescaled by the same positive factor give the same matrix. -/
theorem C30_scale_free (cube : Arr3 (Option ℝ)) (M p c : ℝ) (noise : Option ℝ) (hM : Spec.CubeMax cube M)
    (hM0 : M ≠ 0) (hc : 0 < c) :
    intensityData (cube.map (fun v => v.map (fun t => c * t))) p (noise.map (fun t => c * t)) true =
      intensityData cube p noise true := by
  have hM' : Spec.CubeMax (cube.map (fun v => v.map (fun t => c * t))) (c * M) := by
    constructor
    · obtain ⟨v, hv, i, hi, j, hj, e⟩ := hM.1
      exact ⟨v, hv, i, hi, j, hj, by simp [Arr3.map, e]⟩
    · intro v hv i hi j hj t ht
      simp only [Arr3.map, Option.map_eq_some_iff] at ht
      obtain ⟨t', ht', rfl⟩ := ht
      exact mul_le_mul_of_nonneg_left (hM.2 v hv i hi j hj t' ht') hc.le
  by_cases hlen : 0 ≤ npRound (p * cube.m * cube.p)
  · rw [intensity_value_of hM hM0 hlen, intensity_value_of hM' (mul_ne_zero hc.ne' hM0) hlen]
    have hchan : ∀ dv, (cube.map (fun v => v.map (fun t => c * t))).channel dv =
        (cube.channel dv).map (fun v => v.map (fun t => c * t)) := by
      intro dv
      unfold Arr3.channel Arr3.map
      simp only [List.map_flatMap, List.map_map, Function.comp_def]
    have hkept : ∀ dv, keptValues (cube.map (fun v => v.map (fun t => c * t))) (noise.map (fun t => c * t)) dv =
        (keptValues cube noise dv).map (fun t => c * t) := by
      intro dv
      unfold keptValues
      rw [hchan, validVals_map, List.filter_map]
      congr 1
      apply List.filter_congr
      intro x _
      cases noise with
      | none => rfl
      | some l =>
        simp only [Function.comp, Option.map_some]
        congr 1
        exact propext (mul_lt_mul_iff_right₀ hc)
    have hsort : ∀ l : List ℝ, sortDesc (l.map (fun t => c * t)) = (sortDesc l).map (fun t => c * t) := by
      intro l
      apply List.Perm.eq_of_pairwise (le := fun a b => b ≤ a)
      · intro a b _ _ h1 h2; exact le_antisymm h2 h1
      · exact sortDesc_pairwise _
      · rw [List.pairwise_map]
        exact (sortDesc_pairwise l).imp (fun h => mul_le_mul_of_nonneg_left h hc.le)
      · exact (sortDesc_perm _).trans ((sortDesc_perm l).map _).symm
    have hpad : ∀ (l : List ℝ) (n k : ℕ), (padOrCut (l.map (fun t => c * t)) n).getD k 0 =
        c * (padOrCut l n).getD k 0 := by
      intro l n k
      have : padOrCut (l.map (fun t => c * t)) n = (padOrCut l n).map (fun t => c * t) := by
        unfold padOrCut
        rw [List.length_map]
        split_ifs
        · rw [List.map_append, List.map_replicate, mul_zero]
        · rw [List.map_take]
      rw [this, List.getD_eq_getElem?_getD, List.getD_eq_getElem?_getD, List.getElem?_map]
      cases (padOrCut l n)[k]? <;> simp
    congr 2
    funext dv k
    rw [hkept, hsort, hpad]
    simp only [Arr3.map]
    congr 1
    field_simp
  · unfold intensityData
    simp only [Arr3.map]
    rw [if_pos (not_le.1 hlen), if_pos (not_le.1 hlen)]

/-- The hypotheses are met by a cube with a non-zero maximum and a positive noise limit. -/
example : Spec.CubeMax (⟨1, 2, 2, fun _ i j => some ((i : ℝ) + j)⟩ : Arr3 (Option ℝ)) 2 := by
  constructor
  · exact ⟨0, by norm_num, 1, by norm_num, 1, by norm_num, by norm_num⟩
  · intro v _ i hi j hj t h
    simp only [Option.some.injEq] at h
    simp only at hi hj
    have h1 : (i : ℝ) ≤ 1 := by exact_mod_cast (by omega : i ≤ 1)
    have h2 : (j : ℝ) ≤ 1 := by exact_mod_cast (by omega : j ≤ 1)
    linarith

end TS
