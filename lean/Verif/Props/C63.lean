import Verif.Model.DeltaVariance
import Verif.Lemmas.L2
import Mathlib.Tactic.Linarith
import Mathlib.Analysis.SpecialFunctions.Log.Base
import Mathlib.Tactic.FieldSimp

/-! C63 — laws of the delta-variance curve distance. -/

namespace TS
open Finset

/-- Curves computed at the same lags. -/
def SameLags (a b : DvCurve) : Prop := a.lags = b.lags ∧ a.vals.length = b.vals.length

private theorem part_length (a b : DvCurve) (h : SameLags a b) (hr : a.low = b.low ∧ a.high = b.high) :
    (curvePart a b.vals).length = (curvePart b a.vals).length := by
  unfold curvePart
  simp only [List.length_map]
  rw [h.1, h.2, hr.1, hr.2]
  congr 1
  apply List.filter_congr
  intro i _
  rw [Bool.and_comm (usable (a.vals.getD i none))]

/-- Curves at common lags with the same fitted range always have a distance, a non-negative number. -/
theorem C63_defined (a b : DvCurve) (h : SameLags a b) (hr : a.low = b.low ∧ a.high = b.high) :
    ∃ d, curveDistance true a b = .ok (some d) ∧ 0 ≤ d := by
  unfold curveDistance
  simp only [if_true]
  rw [if_neg (by simpa using h.2), if_pos hr, if_pos (part_length a b h hr)]
  exact ⟨_, rfl, Real.sqrt_nonneg _⟩

/-- It is NaN when the fitted ranges differ, or when the lags are not common. -/
theorem C63_undefined (a b : DvCurve) (h : SameLags a b) :
    (¬ (a.low = b.low ∧ a.high = b.high) → curveDistance true a b = .ok none) ∧
    curveDistance false a b = .ok none := by
  constructor
  · intro hr
    unfold curveDistance
    simp only [if_true]
    rw [if_neg (by simpa using h.2), if_neg hr]
  · rfl

/-- It is symmetric. -/
theorem C63_symmetric (a b : DvCurve) (common : Bool) : curveDistance common a b = curveDistance common b a := by
  unfold curveDistance
  cases common
  · rfl
  simp only [if_true]
  by_cases h : a.vals.length = b.vals.length
  · have n1 : ¬ (a.vals.length ≠ b.vals.length) := not_not.2 h
    have n2 : ¬ (b.vals.length ≠ a.vals.length) := not_not.2 h.symm
    rw [if_neg n1, if_neg n2]
    by_cases hr : a.low = b.low ∧ a.high = b.high
    · have hr' : b.low = a.low ∧ b.high = a.high := ⟨hr.1.symm, hr.2.symm⟩
      rw [if_pos hr, if_pos hr']
      by_cases hl : (curvePart a b.vals).length = (curvePart b a.vals).length
      · rw [if_pos hl, if_pos hl.symm, hl]
        congr 4
        apply List.map_congr_left
        intro i _
        ring
      · rw [if_neg hl, if_neg (fun hh => hl hh.symm)]
    · have hr' : ¬ (b.low = a.low ∧ b.high = a.high) := fun hh => hr ⟨hh.1.symm, hh.2.symm⟩
      rw [if_neg hr, if_neg hr']
  · have h' : b.vals.length ≠ a.vals.length := fun hh => h hh.symm
    rw [if_pos h, if_pos h']

private theorem usable_scale (c : ℝ) (hc : 0 < c) (v : Option ℝ) : usable (v.map (c * ·)) = usable v := by
  cases v with
  | none => rfl
  | some x => simp [usable, hc]

private theorem getD_map (l : List (Option ℝ)) (c : ℝ) (i : ℕ) :
    (l.map (Option.map (c * ·))).getD i none = (l.getD i none).map (c * ·) := by
  simp only [List.getD_eq_getElem?_getD, List.getElem?_map]
  cases l[i]? <;> simp

private theorem part_scale (a : DvCurve) (o o' : List (Option ℝ)) (c : ℝ) (hc : 0 < c)
    (ho : ∀ i, usable (o'.getD i none) = usable (o.getD i none)) :
    curvePart { a with vals := a.vals.map (Option.map (c * ·)) } o' = curvePart a o := by
  unfold curvePart
  simp only [List.length_map, getD_map, usable_scale c hc, ho]
  set keep := (List.range a.vals.length).filter (fun i =>
    decide (a.low ≤ a.lags.getD i 0 ∧ a.lags.getD i 0 ≤ a.high) &&
      (usable (a.vals.getD i none) && usable (o.getD i none)))
  have hm : ∀ i, ((a.vals.getD i none).map (c * ·)).getD 0 = c * (a.vals.getD i none).getD 0 := by
    intro i; cases a.vals.getD i none <;> simp
  simp only [hm]
  have hs : (keep.map (fun i => c * (a.vals.getD i none).getD 0)).sum =
      c * (keep.map (fun i => (a.vals.getD i none).getD 0)).sum := List.sum_map_mul_left _ _ _
  rw [hs, List.map_map, List.map_map]
  apply List.map_congr_left
  intro i _
  simp only [Function.comp]
  rw [mul_div_mul_left _ _ hc.ne']

/-- The distance only looks at the shapes of the curves: multiplying either by a positive factor (a change
of brightness unit) changes nothing. -/
theorem C63_scale (a b : DvCurve) (common : Bool) (c : ℝ) (hc : 0 < c) :
    curveDistance common { a with vals := a.vals.map (Option.map (c * ·)) } b = curveDistance common a b := by
  unfold curveDistance
  simp only [List.length_map]
  rw [part_scale a b.vals b.vals c hc (fun _ => rfl)]
  have : curvePart b (a.vals.map (Option.map (c * ·))) = curvePart b a.vals := by
    unfold curvePart
    simp only [getD_map, usable_scale c hc]
  rw [this]

/-- A curve and any positive multiple of it are at distance zero. -/
theorem C63_zero (a : DvCurve) (c : ℝ) (hc : 0 < c) :
    curveDistance true { a with vals := a.vals.map (Option.map (c * ·)) } a = .ok (some 0) := by
  rw [C63_scale a a true c hc]
  unfold curveDistance
  simp

/-- Only usable values matter: NaN or non-positive values of the other curve at a lag remove that lag from
both. -/
theorem C63_pairwise_exclusion (a b : DvCurve) (a' : DvCurve)
    (hl : a'.lags = a.lags ∧ a'.low = a.low ∧ a'.high = a.high ∧ a'.vals.length = a.vals.length)
    (hv : ∀ i, usable (b.vals.getD i none) = true →
      a'.vals.getD i none = a.vals.getD i none)  :
    curveDistance true a' b = curveDistance true a b := by
  have key : ∀ i, (usable (a'.vals.getD i none) && usable (b.vals.getD i none)) =
      (usable (a.vals.getD i none) && usable (b.vals.getD i none)) := by
    intro i
    cases hb : usable (b.vals.getD i none) with
    | false => simp
    | true => rw [hv i hb]
  have e1 : curvePart a' b.vals = curvePart a b.vals := by
    unfold curvePart
    simp only [hl.1, hl.2.1, hl.2.2.1, hl.2.2.2, key]
    have : ((List.range a.vals.length).filter (fun i =>
          decide (a.low ≤ a.lags.getD i 0 ∧ a.lags.getD i 0 ≤ a.high) &&
            (usable (a.vals.getD i none) && usable (b.vals.getD i none)))).map
          (fun i => (a'.vals.getD i none).getD 0) =
        ((List.range a.vals.length).filter (fun i =>
          decide (a.low ≤ a.lags.getD i 0 ∧ a.lags.getD i 0 ≤ a.high) &&
            (usable (a.vals.getD i none) && usable (b.vals.getD i none)))).map
          (fun i => (a.vals.getD i none).getD 0) := by
      apply List.map_congr_left
      intro i hi
      have := (List.mem_filter.1 hi).2
      simp only [Bool.and_eq_true] at this
      rw [hv i this.2.2]
    rw [this]
  have e2 : curvePart b a'.vals = curvePart b a.vals := by
    unfold curvePart
    have : ∀ i, (usable (b.vals.getD i none) && usable (a'.vals.getD i none)) =
        (usable (b.vals.getD i none) && usable (a.vals.getD i none)) := by
      intro i; rw [Bool.and_comm, key, Bool.and_comm]
    simp only [this]
  unfold curveDistance
  rw [e1, e2, hl.2.1, hl.2.2.1, hl.2.2.2]

namespace Spec

/-- The value of a curve at lag number `i` (only used where it is a number). -/
def curveVal (c : DvCurve) (i : ℕ) : ℝ := (c.vals.getD i none).getD 0

/-- The lag numbers compared: inside the fitted range, with positive values in both curves. -/
noncomputable def dvCompared (a b : DvCurve) : Finset ℕ :=
  (range a.vals.length).filter (fun i => (a.low ≤ a.lags.getD i 0 ∧ a.lags.getD i 0 ≤ a.high) ∧
    (∃ x, a.vals.getD i none = some x ∧ 0 < x) ∧ ∃ y, b.vals.getD i none = some y ∧ 0 < y)

/-- The share of lag number `i` in the total of the curve over the lags `s`. -/
noncomputable def dvShare (c : DvCurve) (s : Finset ℕ) (i : ℕ) : ℝ := curveVal c i / ∑ j ∈ s, curveVal c j

end Spec

open Spec

private theorem usable_iff (v : Option ℝ) : usable v = true ↔ ∃ x, v = some x ∧ 0 < x := by
  cases v <;> simp [usable]

private theorem sum_keep (n : ℕ) (q : ℕ → Bool) (f : ℕ → ℝ) :
    (((List.range n).filter q).map f).sum = ∑ i ∈ (range n).filter (fun i => q i = true), f i := by
  rw [Finset.sum_filter]
  induction n with
  | zero => simp
  | succ n ih =>
    rw [List.range_succ, List.filter_append, List.map_append, List.sum_append, ih, Finset.sum_range_succ]
    congr 1
    cases h : q n <;> simp [h]

private theorem sum_getD (l : List ℕ) (f g : ℕ → ℝ) :
    ((List.range (l.map f).length).map (fun i => ((l.map f).getD i 0 - (l.map g).getD i 0) ^ 2)).sum =
      (l.map (fun i => (f i - g i) ^ 2)).sum := by
  congr 1
  apply List.ext_getElem
  · simp
  · intro i h1 h2
    have h : i < l.length := by simpa using h2
    simp [List.getD_eq_getElem?_getD, List.getElem?_eq_getElem h]

/-- The value: the Euclidean distance of the logarithms (base ten) of the two curves' shares over the
compared lags. -/
theorem C63_value (a b : DvCurve) (h : SameLags a b) (hr : a.low = b.low ∧ a.high = b.high) :
    curveDistance true a b = .ok (some (Real.sqrt (∑ i ∈ dvCompared a b,
      (Real.logb 10 (dvShare a (dvCompared a b) i) - Real.logb 10 (dvShare b (dvCompared a b) i)) ^ 2))) := by
  have hl := part_length a b h hr
  unfold curveDistance
  simp only [if_true]
  rw [if_neg (by simpa using h.2), if_pos hr, if_pos hl]
  set q : ℕ → Bool := fun i => decide (a.low ≤ a.lags.getD i 0 ∧ a.lags.getD i 0 ≤ a.high) &&
      (usable (a.vals.getD i none) && usable (b.vals.getD i none)) with hq
  have hc : dvCompared a b = (range a.vals.length).filter (fun i => q i = true) := by
    unfold dvCompared
    apply Finset.filter_congr
    intro i _
    simp only [hq, Bool.and_eq_true, decide_eq_true_eq, usable_iff]
  have e1 : curvePart a b.vals = ((List.range a.vals.length).filter q).map
      (fun i => Real.logb 10 (dvShare a (dvCompared a b) i)) := by
    unfold curvePart
    simp only [List.map_map]
    apply List.map_congr_left
    intro i _
    simp only [Function.comp, log10, dvShare]
    rw [hc, ← sum_keep]
    rfl
  have e2 : curvePart b a.vals = ((List.range a.vals.length).filter q).map
      (fun i => Real.logb 10 (dvShare b (dvCompared a b) i)) := by
    have hk : (List.range b.vals.length).filter (fun i =>
        decide (b.low ≤ b.lags.getD i 0 ∧ b.lags.getD i 0 ≤ b.high) &&
          (usable (b.vals.getD i none) && usable (a.vals.getD i none))) =
        (List.range a.vals.length).filter q := by
      rw [← h.2]
      apply List.filter_congr
      intro i _
      simp only [hq]
      rw [← h.1, hr.1, hr.2, Bool.and_comm (usable (b.vals.getD i none))]
    unfold curvePart
    simp only [hk, List.map_map]
    apply List.map_congr_left
    intro i _
    simp only [Function.comp, log10, dvShare]
    rw [hc, ← sum_keep]
    rfl
  simp only [e1, e2]
  rw [sum_getD, sum_keep, ← hc]

private theorem compared_pos {a b : DvCurve} {i : ℕ} (hi : i ∈ dvCompared a b) :
    0 < curveVal a i ∧ 0 < curveVal b i := by
  obtain ⟨x, hx, hx0⟩ := (Finset.mem_filter.1 hi).2.2.1
  obtain ⟨y, hy, hy0⟩ := (Finset.mem_filter.1 hi).2.2.2
  unfold curveVal
  rw [hx, hy]
  exact ⟨hx0, hy0⟩

/-- It is zero exactly when the two curves are proportional over the compared lags. -/
theorem C63_zero_iff (a b : DvCurve) (h : SameLags a b) (hr : a.low = b.low ∧ a.high = b.high) :
    curveDistance true a b = .ok (some 0) ↔ ∃ c : ℝ, 0 < c ∧ ∀ i ∈ dvCompared a b, curveVal a i = c * curveVal b i := by
  rw [C63_value a b h hr]
  simp only [Except.ok.injEq, Option.some.injEq]
  rw [Real.sqrt_eq_zero (Finset.sum_nonneg (fun i _ => sq_nonneg _)),
    Finset.sum_eq_zero_iff_of_nonneg (fun i _ => sq_nonneg _)]
  constructor
  · intro hz
    rcases (dvCompared a b).eq_empty_or_nonempty with he | hne
    · exact ⟨1, one_pos, by simp [he]⟩
    have pa : 0 < ∑ j ∈ dvCompared a b, curveVal a j := Finset.sum_pos (fun j hj => (compared_pos hj).1) hne
    have pb : 0 < ∑ j ∈ dvCompared a b, curveVal b j := Finset.sum_pos (fun j hj => (compared_pos hj).2) hne
    refine ⟨(∑ j ∈ dvCompared a b, curveVal a j) / ∑ j ∈ dvCompared a b, curveVal b j, div_pos pa pb, ?_⟩
    intro i hi
    have h0 := hz i hi
    rw [sq_eq_zero_iff, sub_eq_zero] at h0
    obtain ⟨va, vb⟩ := compared_pos hi
    have := Real.logb_injOn_pos (by norm_num : (1 : ℝ) < 10) (Set.mem_Ioi.2 (div_pos va pa))
      (Set.mem_Ioi.2 (div_pos vb pb)) h0
    field_simp at this
    field_simp
    linarith
  · rintro ⟨c, hc, hp⟩ i hi
    have hs : ∑ j ∈ dvCompared a b, curveVal a j = c * ∑ j ∈ dvCompared a b, curveVal b j := by
      rw [Finset.mul_sum]; exact Finset.sum_congr rfl hp
    unfold dvShare
    rw [hs, hp i hi, mul_div_mul_left _ _ hc.ne', sub_self]
    norm_num

/-- Non-vacuity: of three lags, the second is missing from one curve, so the first and the third are
compared. -/
example : dvCompared ⟨[1, 2, 3], [some 1, none, some 2], 1, 3⟩ ⟨[1, 2, 3], [some 3, some 1, some 1], 1, 3⟩ =
    {0, 2} := by
  ext i
  unfold dvCompared
  simp only [Finset.mem_filter, Finset.mem_range, List.length_cons, List.length_nil, Finset.mem_insert,
    Finset.mem_singleton]
  constructor
  · rintro ⟨hi, _, ⟨x, hx, _⟩, _⟩
    have : i = 0 ∨ i = 1 ∨ i = 2 := by omega
    rcases this with rfl | rfl | rfl
    · exact Or.inl rfl
    · simp at hx
    · exact Or.inr rfl
  · rintro (rfl | rfl) <;> norm_num

/-- Curves whose lags differ in pixels can raise: the numbers of compared points differ. -/
theorem C63_unequal_lags_fail : ∃ a b : DvCurve, a.vals.length = b.vals.length ∧
    a.low = b.low ∧ a.high = b.high ∧ curveDistance true a b = .error .valueError := by
  refine ⟨⟨[1, 2], [some 1, some 1], 1, 2⟩, ⟨[1, 4], [some 1, some 1], 1, 2⟩, rfl, rfl, rfl, ?_⟩
  unfold curveDistance
  simp only [if_true, List.length_cons, List.length_nil, ne_eq, not_true, if_false, and_self]
  rw [if_neg]
  unfold curvePart
  simp [List.range_succ, usable]
  norm_num [List.filter]

/-- Non-vacuity: two different curves at common lags. -/
example : SameLags ⟨[1, 2], [some 1, none], 1, 2⟩ ⟨[1, 2], [some 3, some 1], 1, 2⟩ := ⟨rfl, rfl⟩

end TS
