import Verif.Model.HighMoments
import Verif.Props.C23
import Verif.Props.C41
import Verif.Lemmas.Slices
import Mathlib.Tactic.Linarith
import Mathlib.Tactic.IntervalCases

/-! C43 — moment maps: the circular region and the minimum valid fraction. -/

namespace TS
open Finset

namespace Spec

/-- The map continued by missing values. -/
def nanExt (img : Arr2 (Option ℝ)) (i j : ℤ) : Option ℝ :=
  if 0 ≤ i ∧ i < img.n ∧ 0 ≤ j ∧ j < img.m then img.get i.toNat j.toNat else none

/-- The map continued beyond its edges: periodically, or by missing values. -/
def contExt (periodic : Bool) (img : Arr2 (Option ℝ)) : ℤ → ℤ → Option ℝ :=
  if periodic then periodicExt img else nanExt img

/-- Offsets `-r … r` in both directions. -/
def square (r : ℕ) : Finset (ℕ × ℕ) := range (2 * r + 1) ×ˢ range (2 * r + 1)

/-- Number of present pixels in the square of half-width `r` around `(i, j)`. -/
noncomputable def squareCount (z : ℤ → ℤ → Option ℝ) (r : ℕ) (i j : ℤ) : ℕ :=
  ((square r).filter (fun p => (z (i + p.1 - r) (j + p.2 - r)).isSome)).card

/-- Strictly inside the circle of radius `r`. -/
def InCircle (r : ℕ) (dx dy : ℤ) : Prop := dx ^ 2 + dy ^ 2 < (r : ℤ) ^ 2

instance (r : ℕ) (dx dy : ℤ) : Decidable (InCircle r dx dy) := by unfold InCircle; infer_instance

/-- Pixels and weights of the circle around `(i, j)`, in row order; positions outside hold nothing. -/
noncomputable def circlePixels (z w : ℤ → ℤ → Option ℝ) (r : ℕ) (i j : ℤ) : List (Option ℝ × Option ℝ) :=
  (List.range (2 * r + 1)).flatMap (fun u : ℕ => (List.range (2 * r + 1)).map (fun v : ℕ =>
    if InCircle r ((u : ℤ) - r) ((v : ℤ) - r) then (z (i + u - r) (j + v - r), w (i + u - r) (j + v - r))
    else (none, none)))

end Spec
open Spec

/-- `circular_region(r)` has `2r + 1` rows and columns, holds 1 exactly at the offsets strictly inside the
radius and NaN elsewhere. -/
theorem C43_circle (r : ℕ) :
    (circularRegion r).n = 2 * r + 1 ∧ (circularRegion r).m = 2 * r + 1 ∧
    ∀ i j : ℕ, (circularRegion r).get i j = if InCircle r ((i : ℤ) - r) ((j : ℤ) - r) then some 1 else none := by
  refine ⟨rfl, rfl, ?_⟩
  intro i j
  have : (((i : ℝ) - r) ^ 2 + ((j : ℝ) - r) ^ 2 < (r : ℝ) ^ 2) ↔ InCircle r ((i : ℤ) - r) ((j : ℤ) - r) := by
    unfold InCircle
    rw [← Int.cast_lt (R := ℝ)]
    push_cast
    rfl
  unfold circularRegion
  simp only [this]

/-- It is symmetric under reflection of either axis and under exchange of the axes. -/
theorem C43_circle_symmetric (r i j : ℕ) (hi : i ≤ 2 * r) (hj : j ≤ 2 * r) :
    (circularRegion r).get (2 * r - i) j = (circularRegion r).get i j ∧
    (circularRegion r).get i (2 * r - j) = (circularRegion r).get i j ∧
    (circularRegion r).get j i = (circularRegion r).get i j := by
  obtain ⟨_, _, h⟩ := C43_circle r
  simp only [h]
  have e1 : InCircle r (((2 * r - i : ℕ) : ℤ) - r) ((j : ℤ) - r) ↔ InCircle r ((i : ℤ) - r) ((j : ℤ) - r) := by
    unfold InCircle
    rw [show (((2 * r - i : ℕ) : ℤ) - r) = -((i : ℤ) - r) by omega, neg_sq]
  have e2 : InCircle r ((i : ℤ) - r) (((2 * r - j : ℕ) : ℤ) - r) ↔ InCircle r ((i : ℤ) - r) ((j : ℤ) - r) := by
    unfold InCircle
    rw [show (((2 * r - j : ℕ) : ℤ) - r) = -((j : ℤ) - r) by omega, neg_sq]
  have e3 : InCircle r ((j : ℤ) - r) ((i : ℤ) - r) ↔ InCircle r ((i : ℤ) - r) ((j : ℤ) - r) := by
    unfold InCircle; rw [add_comm]
  simp only [e1, e2, e3]
  exact ⟨trivial, trivial, trivial⟩

private theorem pad_ext (junk : ℕ → ℕ → Option ℝ) (periodic : Bool) (img : Arr2 (Option ℝ)) (r : ℕ) (hr : 0 < r)
    (a b : ℕ) (ha : a < img.n + 2 * r) (hb : b < img.m + 2 * r) :
    (momentPad junk periodic img r).get a b = contExt periodic img ((a : ℤ) - r) ((b : ℤ) - r) := by
  unfold momentPad contExt
  cases periodic with
  | true => rfl
  | false =>
    simp only [Bool.false_eq_true, if_false]
    obtain ⟨hn, hm, hin, hout⟩ := C23_pad_image junk (none : Option ℝ) img r hr
    unfold nanExt
    split_ifs with h
    · have := hin (a - r) (by omega) (b - r) (by omega)
      rw [show a - r + r = a by omega, show b - r + r = b by omega] at this
      rw [this]
      congr 1 <;> omega
    · exact hout a (by rw [hn]; exact ha) b (by rw [hm]; exact hb) (by omega)

private theorem pad_shape (junk : ℕ → ℕ → Option ℝ) (periodic : Bool) (img : Arr2 (Option ℝ)) (r : ℕ) :
    (momentPad junk periodic img r).n = img.n + 2 * r ∧ (momentPad junk periodic img r).m = img.m + 2 * r := by
  unfold momentPad
  cases periodic <;> exact ⟨rfl, rfl⟩

private theorem box_spec (junk : ℕ → ℕ → Option ℝ) (periodic : Bool) (img : Arr2 (Option ℝ)) (r : ℕ) (hr : 0 < r)
    (i j : ℕ) (hi : i < img.n) (hj : j < img.m) :
    let b := boxAt (momentPad junk periodic img r) r (i + r) (j + r)
    b.n = 2 * r + 1 ∧ b.m = 2 * r + 1 ∧ ∀ u < 2 * r + 1, ∀ v < 2 * r + 1,
      b.get u v = contExt periodic img ((i : ℤ) + u - r) ((j : ℤ) + v - r) := by
  intro b
  obtain ⟨pn, pm⟩ := pad_shape junk periodic img r
  have r0 : (⟨some (((i + r : ℕ) : ℤ) - r), some (((i + r : ℕ) : ℤ) + r + 1), 1⟩ : PySlice).resolve
      (img.n + 2 * r) = ⟨i, 1, 2 * r + 1⟩ := by
    rw [resolve_range (by push_cast; omega) (by omega) (by push_cast; omega)]
    congr 1 <;> push_cast <;> omega
  have r1 : (⟨some (((j + r : ℕ) : ℤ) - r), some (((j + r : ℕ) : ℤ) + r + 1), 1⟩ : PySlice).resolve
      (img.m + 2 * r) = ⟨j, 1, 2 * r + 1⟩ := by
    rw [resolve_range (by push_cast; omega) (by omega) (by push_cast; omega)]
    congr 1 <;> push_cast <;> omega
  have hb : b = ⟨2 * r + 1, 2 * r + 1, fun u v => (momentPad junk periodic img r).get
      ((i : ℤ) + 1 * u).toNat ((j : ℤ) + 1 * v).toNat⟩ := by
    simp only [b, boxAt, Arr2.slice0, Arr2.slice1, pn, pm, r0, r1, SliceIx.ix]
  rw [hb]
  refine ⟨rfl, rfl, ?_⟩
  intro u hu v hv
  simp only
  rw [pad_ext junk periodic img r hr _ _ (by omega) (by omega)]
  congr 1 <;> omega

private theorem frac_spec (junk : ℕ → ℕ → Option ℝ) (periodic : Bool) (img : Arr2 (Option ℝ)) (r : ℕ) (hr : 0 < r)
    (i j : ℕ) (hi : i < img.n) (hj : j < img.m) :
    finiteFrac (boxAt (momentPad junk periodic img r) r (i + r) (j + r)) =
      (squareCount (contExt periodic img) r i j : ℝ) / (((2 * r + 1) * (2 * r + 1) : ℕ) : ℝ) := by
  obtain ⟨h1, h2, h3⟩ := box_spec junk periodic img r hr i j hi hj
  unfold finiteFrac
  rw [h1, h2]
  congr 2
  unfold Arr2.nFinite squareCount square
  rw [h1, h2, card_filter, sum_product]
  apply sum_congr rfl; intro u hu
  apply sum_congr rfl; intro v hv
  rw [h3 u (mem_range.1 hu) v (mem_range.1 hv)]

private theorem zip_flat {α β γ δ : Type*} (f : α → β → γ) (g : α → β → δ) (l : List α) (l' : List β) :
    (l.flatMap (fun u => l'.map (fun v => f u v))).zip (l.flatMap (fun u => l'.map (fun v => g u v))) =
      l.flatMap (fun u => l'.map (fun v => (f u v, g u v))) := by
  induction l with
  | nil => rfl
  | cons x xs ih =>
    simp only [List.flatMap_cons]
    rw [List.zip_append (by simp), ih]
    congr 1
    rw [List.zip_map']

private theorem circle_list (junkI junkW : ℕ → ℕ → Option ℝ) (periodic : Bool) (img wgt : Arr2 (Option ℝ))
    (hw : wgt.n = img.n ∧ wgt.m = img.m) (r : ℕ) (hr : 0 < r) (i j : ℕ) (hi : i < img.n) (hj : j < img.m) :
    let bi := boxAt (momentPad junkI periodic img r) r (i + r) (j + r)
    let bw := boxAt (momentPad junkW periodic wgt r) r (i + r) (j + r)
    let c := circularRegion r
    (⟨bi.n, bi.m, fun u v => mulO (bi.get u v) (c.get u v)⟩ : Arr2 (Option ℝ)).ravel.zip
      (⟨bw.n, bw.m, fun u v => mulO (bw.get u v) (c.get u v)⟩ : Arr2 (Option ℝ)).ravel =
    circlePixels (contExt periodic img) (contExt periodic wgt) r i j := by
  intro bi bw c
  obtain ⟨h1, h2, h3⟩ := box_spec junkI periodic img r hr i j hi hj
  obtain ⟨g1, g2, g3⟩ := box_spec junkW periodic wgt r hr i j (by rw [hw.1]; exact hi) (by rw [hw.2]; exact hj)
  have hbn : bi.n = 2 * r + 1 := h1
  have hbm : bi.m = 2 * r + 1 := h2
  have hwn : bw.n = 2 * r + 1 := g1
  have hwm : bw.m = 2 * r + 1 := g2
  unfold Arr2.ravel circlePixels
  simp only [hbn, hbm, hwn, hwm]
  rw [zip_flat]
  apply List.flatMap_congr
  intro u hu
  apply List.map_congr_left
  intro v hv
  rw [List.mem_range] at hu hv
  have hc := (C43_circle r).2.2 u v
  have hb := h3 u hu v hv
  have hg := g3 u hu v hv
  show (mulO (bi.get u v) (c.get u v), mulO (bw.get u v) (c.get u v)) = _
  rw [show bi.get u v = _ from hb, show bw.get u v = _ from hg, show c.get u v = _ from hc]
  split_ifs
  · cases contExt periodic img ((i : ℤ) + u - r) ((j : ℤ) + v - r) <;>
      cases contExt periodic wgt ((i : ℤ) + u - r) ((j : ℤ) + v - r) <;> simp [mulO]
  · cases contExt periodic img ((i : ℤ) + u - r) ((j : ℤ) + v - r) <;>
      cases contExt periodic wgt ((i : ℤ) + u - r) ((j : ℤ) + v - r) <;> simp [mulO]

/-- What is computed at each pixel, for both boundary treatments: NaN when less than `min_frac` of the
*square* around the pixel is present in the image or in the weights, otherwise the moments of the pixels
in the circle.  Missing for the full property: the fraction should be that of the circle
(`C43_full_circle_rejected`, `C43_sparse_circle_accepted`), and `run` ignores `min_frac`. -/
theorem C43_maps_partial (junkI junkW : ℕ → ℕ → Option ℝ) (periodic : Bool) (minFrac rad : ℝ)
    (img wgt : Arr2 (Option ℝ)) (hw : wgt.n = img.n ∧ wgt.m = img.m) (hrad : 0 < rad)
    (hf : 0 < minFrac ∧ minFrac ≤ 1) :
    ∃ res, spatialDistrib junkI junkW periodic minFrac rad img wgt = .ok res ∧
      res.n = img.n ∧ res.m = img.m ∧ ∀ i < img.n, ∀ j < img.m,
      let r := ⌈rad⌉₊
      let total : ℝ := (((2 * r + 1) * (2 * r + 1) : ℕ) : ℝ)
      res.get i j =
        if (squareCount (contExt periodic img) r i j : ℝ) / total < minFrac ∨
            (squareCount (contExt periodic wgt) r i j : ℝ) / total < minFrac then ⟨none, none, none, none⟩
        else computeMoments (circlePixels (contExt periodic img) (contExt periodic wgt) r i j) := by
  have hnot : ¬ (minFrac ≤ 0 ∨ 1 < minFrac) := by push Not; exact hf
  unfold spatialDistrib
  rw [if_neg hnot]
  refine ⟨_, rfl, rfl, rfl, ?_⟩
  intro i hi j hj r total
  have hr : 0 < r := Nat.ceil_pos.2 hrad
  simp only [localMoments]
  rw [frac_spec junkI periodic img r hr i j hi hj,
    frac_spec junkW periodic wgt r hr i j (by rw [hw.1]; exact hi) (by rw [hw.2]; exact hj)]
  rw [circle_list junkI junkW periodic img wgt hw r hr i j hi hj]
  rfl

/-- A `min_frac` outside (0, 1] is refused. -/
theorem C43_min_frac_checked (junkI junkW : ℕ → ℕ → Option ℝ) (periodic : Bool) (minFrac rad : ℝ)
    (img wgt : Arr2 (Option ℝ)) :
    spatialDistrib junkI junkW periodic minFrac rad img wgt = .error .valueError ↔ minFrac ≤ 0 ∨ 1 < minFrac := by
  unfold spatialDistrib
  split_ifs with h
  · exact ⟨fun _ => h, fun _ => rfl⟩
  · exact ⟨fun hh => (by cases hh), fun hh => absurd hh h⟩

/-- `run(min_frac=f)` does not use `f`: it gives the maps for 0.8 (and accepts impossible values). -/
theorem C43_run_ignores_min_frac (junkI junkW : ℕ → ℕ → Option ℝ) (periodic : Bool) (f rad : ℝ)
    (img wgt : Arr2 (Option ℝ)) :
    statMomentsRun junkI junkW periodic f rad img wgt = spatialDistrib junkI junkW periodic 0.8 rad img wgt ∧
    ∃ res, statMomentsRun junkI junkW periodic f rad img wgt = .ok res := by
  refine ⟨rfl, ?_⟩
  unfold statMomentsRun spatialDistrib
  rw [if_neg (by norm_num)]
  exact ⟨_, rfl⟩

/-- 5×5 map with only the nine central pixels. -/
def centreMap : Arr2 (Option ℝ) := ⟨5, 5, fun i j => if 1 ≤ i ∧ i ≤ 3 ∧ 1 ≤ j ∧ j ≤ 3 then some 1 else none⟩

/-- 5×5 map lacking five of the nine central pixels. -/
def sparseMap : Arr2 (Option ℝ) :=
  ⟨5, 5, fun i j => if (i = 1 ∧ 1 ≤ j ∧ j ≤ 3) ∨ (i = 2 ∧ (j = 1 ∨ j = 2)) then none else some 1⟩

/-- Uniform weights. -/
def ones5 : Arr2 (Option ℝ) := ⟨5, 5, fun _ _ => some 1⟩

private theorem count_map (a : Arr2 (Option ℝ)) (hn : a.n = 5) (hm : a.m = 5) (P : ℕ → ℕ → Bool)
    (h : ∀ i j, (a.get i j).isSome = P i j) :
    squareCount (contExt false a) 2 ((2 : ℕ) : ℤ) ((2 : ℕ) : ℤ) =
      ((range 5 ×ˢ range 5).filter (fun p => P p.1 p.2)).card := by
  unfold squareCount square
  congr 1
  apply filter_congr
  intro p hp
  rw [mem_product, mem_range, mem_range] at hp
  unfold contExt nanExt
  simp only [Bool.false_eq_true, if_false]
  rw [if_pos (by rw [hn, hm]; omega), h]
  rw [show (((2 : ℕ) : ℤ) + (p.1 : ℤ) - ((2 : ℕ) : ℤ)).toNat = p.1 by omega,
    show (((2 : ℕ) : ℤ) + (p.2 : ℤ) - ((2 : ℕ) : ℤ)).toNat = p.2 by omega]

private theorem count_centre : squareCount (contExt false centreMap) 2 ((2 : ℕ) : ℤ) ((2 : ℕ) : ℤ) = 9 := by
  rw [count_map centreMap rfl rfl (fun i j => decide (1 ≤ i ∧ i ≤ 3 ∧ 1 ≤ j ∧ j ≤ 3))]
  · decide
  · intro i j; simp only [centreMap]; split_ifs with h <;> simp [h]

private theorem count_sparse : squareCount (contExt false sparseMap) 2 ((2 : ℕ) : ℤ) ((2 : ℕ) : ℤ) = 20 := by
  rw [count_map sparseMap rfl rfl
    (fun i j => !decide ((i = 1 ∧ 1 ≤ j ∧ j ≤ 3) ∨ (i = 2 ∧ (j = 1 ∨ j = 2))))]
  · decide
  · intro i j; simp only [sparseMap]; split_ifs with h <;> simp [h]

private theorem count_ones : squareCount (contExt false ones5) 2 ((2 : ℕ) : ℤ) ((2 : ℕ) : ℤ) = 25 := by
  rw [count_map ones5 rfl rfl (fun _ _ => true)]
  · decide
  · intro i j; rfl

private theorem ceil_two : ⌈(2 : ℝ)⌉₊ = 2 := by
  exact_mod_cast Nat.ceil_natCast (R := ℝ) 2

/-- Every pixel of the circle present, yet rejected at the default `min_frac`: the corners of the square
count. -/
theorem C43_full_circle_rejected (junkI junkW : ℕ → ℕ → Option ℝ) :
    (∀ dx dy : ℤ, InCircle 2 dx dy → (nanExt centreMap (2 + dx) (2 + dy)).isSome) ∧
    ∃ res, spatialDistrib junkI junkW false 0.8 2 centreMap ones5 = .ok res ∧ (res.get 2 2).mean = none := by
  constructor
  · intro dx dy h
    unfold InCircle at h
    push_cast at h
    have h1 : -2 < dx ∧ dx < 2 := by constructor <;> nlinarith [sq_nonneg dy]
    have h2 : -2 < dy ∧ dy < 2 := by constructor <;> nlinarith [sq_nonneg dx]
    obtain ⟨a1, a2⟩ := h1
    obtain ⟨b1, b2⟩ := h2
    interval_cases dx <;> interval_cases dy <;> simp [nanExt, centreMap]
  · obtain ⟨res, h, _, _, hv⟩ := C43_maps_partial junkI junkW false 0.8 2 centreMap ones5 ⟨rfl, rfl⟩
      (by norm_num) (by norm_num)
    refine ⟨res, h, ?_⟩
    have := hv 2 (by simp [centreMap]) 2 (by simp [centreMap])
    simp only [ceil_two] at this
    rw [count_centre] at this
    rw [this, if_pos (by left; norm_num)]

/-- Fewer than half of the circle's pixels present (4 of 9), yet accepted at the default `min_frac`. -/
theorem C43_sparse_circle_accepted (junkI junkW : ℕ → ℕ → Option ℝ) :
    ((Spec.square 2).filter (fun p => InCircle 2 ((p.1 : ℤ) - 2) ((p.2 : ℤ) - 2))).card = 9 ∧
    ((Spec.square 2).filter (fun p => InCircle 2 ((p.1 : ℤ) - 2) ((p.2 : ℤ) - 2) ∧
      (sparseMap.get p.1 p.2).isSome)).card = 4 ∧
    ∃ res, spatialDistrib junkI junkW false 0.8 2 sparseMap ones5 = .ok res ∧
      res.get 2 2 = computeMoments (circlePixels (contExt false sparseMap) (contExt false ones5) 2
        ((2 : ℕ) : ℤ) ((2 : ℕ) : ℤ)) := by
  refine ⟨by decide, ?_, ?_⟩
  · have : ∀ p : ℕ × ℕ, ((sparseMap.get p.1 p.2).isSome = true) ↔
        (!decide ((p.1 = 1 ∧ 1 ≤ p.2 ∧ p.2 ≤ 3) ∨ (p.1 = 2 ∧ (p.2 = 1 ∨ p.2 = 2)))) = true := by
      intro p; simp only [sparseMap]; split_ifs with h <;> simp [h]
    simp only [this]
    decide
  · obtain ⟨res, h, _, _, hv⟩ := C43_maps_partial junkI junkW false 0.8 2 sparseMap ones5 ⟨rfl, rfl⟩
      (by norm_num) (by norm_num)
    refine ⟨res, h, ?_⟩
    have := hv 2 (by simp [sparseMap]) 2 (by simp [sparseMap])
    simp only [ceil_two] at this
    rw [count_sparse, count_ones] at this
    rw [this, if_neg (by norm_num)]

/-- The radius setter accepts exactly radii from two pixels to half the smaller side. -/
theorem C43_radius (side : ℕ) (x f : ℝ) :
    (checkRadius side (.quantity [x] f) = .ok () ↔ 2 ≤ x * f ∧ x * f ≤ (side : ℝ) / 2) ∧
    (∀ v, checkRadius side (.plain v) = .error .typeError) ∧
    checkRadius side .foreign = .error .unitConversionError := by
  refine ⟨?_, fun _ => rfl, rfl⟩
  unfold checkRadius
  simp only [List.any_cons, List.any_nil, Bool.or_false, decide_eq_true_eq]
  split_ifs with h1 h2
  · exact ⟨fun h => (by cases h), fun h => absurd h.1 (not_le.2 h1)⟩
  · exact ⟨fun h => (by cases h), fun h => absurd h.2 (not_le.2 h2)⟩
  · exact ⟨fun _ => ⟨not_lt.1 h1, not_lt.1 h2⟩, fun _ => rfl⟩

end TS
