import Verif.Model.SpecWidth
import Verif.Props.C37
import Verif.Props.C51
import Verif.Props.C72
import Mathlib.Tactic.FieldSimp
import Mathlib.Tactic.LinearCombination
import Mathlib.Analysis.SpecialFunctions.Log.Basic
import Mathlib.Analysis.SpecialFunctions.ExpDeriv
import Mathlib.Analysis.Complex.ExponentialBounds

/-! C91 — spectral widths and spectral units. -/

namespace TS
open Finset

namespace Spec

/-- The autocorrelation of an eigenvector, as far as PCA uses it (its first entry is lost, see C62). -/
noncomputable def eigAcf (n : ℕ) (v : ℕ → ℝ) (i : ℕ) : ℝ := circAcf1 n (headless v) i

/-- The documented width of a curve that is largest at 0: where it falls to 1/e of its maximum, on the straight line between the last
entry above and the first below; none when it does not fall that far. -/
def WidthOf (n : ℕ) (y : ℕ → ℝ) : Option ℝ → Prop
  | none => ∀ j < n, Real.exp (-1) * y 0 ≤ y j
  | some w => ∃ i, FirstBelow n y i ∧ (i : ℝ) - 1 ≤ w ∧ w < i ∧ OnLine y i w

/-- `m > 1` is the first minimum of the curve, which falls until then. -/
def FallsTo (n : ℕ) (y : ℕ → ℝ) (m : ℕ) : Prop := 1 < m ∧ m + 1 < n ∧ (∀ i < m, y (i + 1) < y i) ∧ y m < y (m + 1)

/-- Where a curve falling until `m` takes the value `L`, on the straight lines between its entries; none when it does not. -/
def TakesValue (y : ℕ → ℝ) (m : ℕ) (L : ℝ) : Option ℝ → Prop
  | none => y 0 < L ∨ L < y m
  | some w => (∃ i, 0 < i ∧ i ≤ m ∧ y i < L ∧ L ≤ y (i - 1) ∧ y (i - 1) + (w - ((i : ℝ) - 1)) * (y i - y (i - 1)) = L) ∨ (y m = L ∧ w = m)

/-- Sum of squared residuals of a Gaussian of amplitude `A` about 0. -/
noncomputable def gaussResid (A : ℝ) (pts : List (ℝ × ℝ)) (s : ℝ) : ℝ :=
  (pts.map fun p => (p.2 - A * Real.exp (-p.1 ^ 2 / (2 * s ^ 2))) ^ 2).sum

/-- Width of a channel in the unit of size `b`. -/
noncomputable def channelIn (a : ChanAxis) (b : ℝ) : ℝ := |a.cd| * a.size / b

end Spec
open Spec

private theorem acor_get {n : ℕ} (v : ℕ → ℝ) {j : ℕ} (hj : j < n) : (acorSpec n v).get j = eigAcf n v j :=
  C62_spectrum_partial n v j hj

/-! ### Units -/

/-- A width in channels converts to velocity (or whatever the axis is in) by the width of a channel, whatever the sign of the
increment in the header, and every unit names the same width; missing widths stay missing. -/
theorem C91_units (a : ChanAxis) (hcd : a.cd ≠ 0) (hs : 0 < a.size) (ws : List (Option ℝ)) :
    (∀ b, 0 < b → spectralWidth (some (some a)) ws (.axis a.kind b) = .ok (ws.map (Option.map (· * channelIn a b)))) ∧
    spectralWidth (some (some a)) ws .pix = .ok ws := by
  constructor
  · intro b hb
    refine mapM_all_ok _ _ ws ?_
    intro w _
    cases w with
    | none => simp [toSpectral, spectralSize, bind, Except.bind, pure, Except.pure, Except.map]
    | some v =>
      simp only [toSpectral, spectralSize, bind, Except.bind, pure, Except.pure, if_true, Except.map, Option.map_some, channelIn]
      congr 2; ring
  · have := mapM_all_ok (fun w : Option ℝ => match w with
      | none => (toSpectral (some (some a)) 0 .pix .pix).map fun _ => none
      | some v => (toSpectral (some (some a)) v .pix .pix).map some) id ws (by
        intro w _
        cases w <;> rfl)
    rw [List.map_id] at this
    exact this

/-- Conversions between channels and any unit of the axis, and between two such units, are inverse to each other; so are those of
their reciprocals. -/
theorem C91_round_trip (a : ChanAxis) (hcd : a.cd ≠ 0) (hs : 0 < a.size) (u u' : SpecUnit)
    (hu : u = .pix ∨ ∃ b, 0 < b ∧ u = .axis a.kind b) (hu' : u' = .pix ∨ ∃ b, 0 < b ∧ u' = .axis a.kind b) (x : ℝ) :
    (∃ z, toSpectral (some (some a)) x u u' = .ok z ∧ toSpectral (some (some a)) z u' u = .ok x) ∧
    (∃ z, toSpectralFreq (some (some a)) x u u' = .ok z ∧ toSpectralFreq (some (some a)) z u' u = .ok x) := by
  have hc : |a.cd| ≠ 0 := abs_ne_zero.2 hcd
  have hs' := hs.ne'
  have key : ∃ c : ℝ, c ≠ 0 ∧ (∀ x, toSpectral (some (some a)) x u u' = .ok (x * c)) ∧
      ∀ x, toSpectral (some (some a)) x u' u = .ok (x / c) := by
    rcases hu with rfl | ⟨b, hb, rfl⟩ <;> rcases hu' with rfl | ⟨b', hb', rfl⟩
    · exact ⟨1, one_ne_zero, fun x => by simp [toSpectral, spectralSize, bind, Except.bind, pure, Except.pure],
        fun x => by simp [toSpectral, spectralSize, bind, Except.bind, pure, Except.pure]⟩
    · refine ⟨|a.cd| * a.size / b', by positivity, fun x => ?_, fun x => ?_⟩ <;>
      · simp only [toSpectral, spectralSize, bind, Except.bind, pure, Except.pure, if_true]
        congr 1; field_simp
    · refine ⟨b / a.size / |a.cd|, by positivity, fun x => ?_, fun x => ?_⟩ <;>
      · simp only [toSpectral, spectralSize, bind, Except.bind, pure, Except.pure, if_true]
        congr 1; field_simp
    · refine ⟨b / b', by positivity, fun x => ?_, fun x => ?_⟩ <;>
      · simp only [toSpectral, spectralSize, bind, Except.bind, pure, Except.pure, if_true]
        congr 1; field_simp
  obtain ⟨c, hc0, h1, h2⟩ := key
  constructor
  · exact ⟨x * c, h1 x, by rw [h2, mul_div_cancel_right₀ _ hc0]⟩
  · refine ⟨1 / (1 / x * c), by simp [toSpectralFreq, h1, bind, Except.bind, pure, Except.pure], ?_⟩
    simp only [toSpectralFreq, h2, bind, Except.bind, pure, Except.pure]
    congr 1
    rw [one_div_one_div, mul_div_cancel_right₀ _ hc0, one_div_one_div]

/-- A unit of another kind than the axis, a header without spectral axis and a missing header are refused; PCA accepts exactly cubes
with a velocity axis. -/
theorem C91_refused (a : ChanAxis) (k : SpecKind) (b x : ℝ) (u u' : SpecUnit) :
    (k ≠ a.kind → toSpectral (some (some a)) x .pix (.axis k b) = .error .unitConversionError ∧
      toSpectral (some (some a)) x (.axis k b) .pix = .error .unitConversionError) ∧
    toSpectral (some none) x u u' = .error .valueError ∧ toSpectral none x u u' = .error .attributeError ∧
    (enforceVelocity (some (some a)) = .ok () ↔ a.kind = .velocity) ∧ enforceVelocity (some none) = .error .valueError := by
  refine ⟨fun h => ⟨?_, ?_⟩, rfl, rfl, ?_, rfl⟩
  · simp only [toSpectral, spectralSize, bind, Except.bind, if_neg h]
  · simp only [toSpectral, spectralSize, bind, Except.bind, if_neg h]
  · simp only [enforceVelocity, spectralSize, bind, Except.bind, pure, Except.pure]
    by_cases h : a.kind = .velocity
    · simp [h]
    · simp [h]

/-- Cuts of `VCS.fit_pspec` in any unit: the channels fitted are those of the fitted half whose frequency, in cycles per that unit,
is above the lower and not above the upper cut. -/
theorem C91_cuts (a : ChanAxis) (hcd : a.cd ≠ 0) (hs : 0 < a.size) (n : ℕ) (lo hi b b' maxFreq : ℝ) (hb : 0 < b) (hb' : 0 < b') :
    ∃ l, vcsFittedUnits (some (some a)) n (some (lo, .axis a.kind b)) (some (hi, .axis a.kind b')) maxFreq = .ok l ∧
      ∀ i, i ∈ l ↔ (0 < i ∧ i < n / 2) ∧ lo < (i : ℝ) / n / channelIn a b ∧ (i : ℝ) / n / channelIn a b' ≤ hi := by
  have hc : 0 < |a.cd| := abs_pos.2 hcd
  have hfreq : ∀ v c : ℝ, 0 < c → toSpectralFreq (some (some a)) v (.axis a.kind c) .pix = .ok (v * channelIn a c) := by
    intro v c hc'
    simp only [toSpectralFreq, toSpectral, spectralSize, bind, Except.bind, pure, Except.pure, if_true, channelIn]
    congr 1
    field_simp
  refine ⟨vcsFitted n (some (lo * channelIn a b)) (some (hi * channelIn a b')) maxFreq, ?_, ?_⟩
  · simp only [vcsFittedUnits, vcsCut, hfreq lo b hb, hfreq hi b' hb', bind, Except.bind, pure, Except.pure]
  · intro i
    have h1 : 0 < channelIn a b := by unfold channelIn; positivity
    have h2 : 0 < channelIn a b' := by unfold channelIn; positivity
    unfold vcsFitted vcsFitIndices clipFunc
    rw [List.mem_filter]
    simp only [Option.getD_some, Bool.and_eq_true, decide_eq_true_eq]
    rw [lt_div_iff₀ h1, div_le_iff₀ h2]
    refine and_congr ?_ Iff.rfl
    rw [List.mem_drop_iff_getElem]
    constructor
    · rintro ⟨j, hj, rfl⟩
      rw [List.length_range] at hj
      rw [List.getElem_range]
      exact ⟨by omega, by omega⟩
    · rintro ⟨p1, p2⟩
      refine ⟨i - 1, by rw [List.length_range]; omega, ?_⟩
      rw [List.getElem_range]; omega

/-! ### Walk-down widths -/

private theorem widths_ok (fit : ℝ → List (ℝ × ℝ) → Option (ℝ × ℝ)) (n : ℕ) (vecs : ℕ → ℕ → ℝ) (k : ℕ) (hk : 2 ≤ k) (m : Width1D)
    (g : ℕ → Option ℝ × Option ℝ) (f : Arr1 ℝ → Py (Option ℝ × Option ℝ))
    (hf : f = match m with
      | .walkDown => walkWidth
      | .interpolate => interpWidth
      | .fit => fitWidth fit
      | .other => fun _ => .error .valueError)
    (h : ∀ q < k, f (acorSpec n fun i => vecs i q) = .ok (g q)) :
    findSpectralWidths fit n vecs k m = .ok ((List.range k).map g) := by
  obtain ⟨k, rfl⟩ : ∃ j, k = j + 2 := ⟨k - 2, by omega⟩
  have hmap : ∀ (l : List ℕ), (∀ q ∈ l, f (acorSpec n fun i => vecs i q) = .ok (g q)) →
      widthEstimate1D fit m (l.map fun q => acorSpec n fun i => vecs i q) = .ok (l.map g) := by
    intro l hl
    unfold widthEstimate1D
    rw [List.mapM_map]
    refine mapM_all_ok _ _ _ ?_
    intro q hq
    have := hl q hq
    subst hf
    cases m <;> exact this
  simp only [findSpectralWidths, autocorrSpec, bind, Except.bind]
  exact hmap _ fun q hq => h q (List.mem_range.1 hq)

/-- The walk-down widths: one per component, each the documented width of the component's autocorrelation with an error of half a
channel, NaN where there is none. -/
theorem C91_walkdown (fit : ℝ → List (ℝ × ℝ) → Option (ℝ × ℝ)) (n : ℕ) (hn : 0 < n) (vecs : ℕ → ℕ → ℝ) (k : ℕ) (hk : 2 ≤ k) :
    ∃ ws, findSpectralWidths fit n vecs k .walkDown = .ok ws ∧ ws.length = k ∧
      ∀ q < k, ∃ r, ws[q]? = some (r, r.map fun _ => 0.5) ∧ WidthOf n (eigAcf n fun i => vecs i q) r := by
  have key : ∀ q, ∃ r : Option ℝ, walkWidth (acorSpec n fun i => vecs i q) = .ok (r, r.map fun _ => 0.5) ∧
      WidthOf n (eigAcf n fun i => vecs i q) r := by
    intro q
    have hE := C37_eigenspectra n hn fun i => vecs i q
    have hcong : ∀ j < n, (acorSpec n fun i => vecs i q).get j = eigAcf n (fun i => vecs i q) j := fun j hj => acor_get _ hj
    by_cases hall : ∀ j < n, Real.exp (-1) * (acorSpec n fun i => vecs i q).get 0 ≤ (acorSpec n fun i => vecs i q).get j
    · refine ⟨none, ?_, ?_⟩
      · unfold walkWidth
        rw [hE.1 hall]
        rfl
      · intro j hj
        rw [← hcong j hj, ← hcong 0 hn]
        exact hall j hj
    · push Not at hall
      have hex : ∃ j, j < n ∧ (acorSpec n fun i => vecs i q).get j < Real.exp (-1) * (acorSpec n fun i => vecs i q).get 0 := hall
      classical
      set i := Nat.find hex
      have hi : i < n ∧ (acorSpec n fun i => vecs i q).get i < Real.exp (-1) * (acorSpec n fun i => vecs i q).get 0 := Nat.find_spec hex
      have hmin : ∀ j < i, Real.exp (-1) * (acorSpec n fun i => vecs i q).get 0 ≤ (acorSpec n fun i => vecs i q).get j := by
        intro j hj
        by_contra hc
        exact Nat.find_min hex hj ⟨lt_trans hj hi.1, not_le.1 hc⟩
      obtain ⟨w, hw, h1, h2, h3⟩ := hE.2 i ⟨hi.1, hi.2, hmin⟩
      refine ⟨some w, ?_, i, ⟨hi.1, ?_, ?_⟩, h1, h2, ?_⟩
      · unfold walkWidth
        rw [hw]
        rfl
      · rw [← hcong i hi.1, ← hcong 0 hn]; exact hi.2
      · intro j hj
        rw [← hcong j (lt_trans hj hi.1), ← hcong 0 hn]; exact hmin j hj
      · unfold OnLine at h3 ⊢
        rw [← hcong i hi.1, ← hcong 0 hn, ← hcong (i - 1) (by omega)]
        exact h3
  choose g hg1 hg2 using key
  refine ⟨_, widths_ok fit n vecs k hk .walkDown (fun q => (g q, (g q).map fun _ => 0.5)) _ rfl (fun q _ => hg1 q), by simp, ?_⟩
  intro q hq
  refine ⟨g q, ?_, hg2 q⟩
  rw [List.getElem?_map, List.getElem?_range hq]
  rfl

/-- The sign of an eigenvector, which the decomposition leaves open, does not matter; and the widths of the first components do not
depend on how many components are asked for. -/
theorem C91_components (fit : ℝ → List (ℝ × ℝ) → Option (ℝ × ℝ)) (n : ℕ) (hn : 0 < n) (vecs : ℕ → ℕ → ℝ) (k : ℕ) (m : Width1D) :
    (∀ sg : ℕ → ℝ, (∀ q, sg q = 1 ∨ sg q = -1) →
      findSpectralWidths fit n (fun i q => sg q * vecs i q) k m = findSpectralWidths fit n vecs k m) ∧
    (∀ k' ws ws', k ≤ k' → findSpectralWidths fit n vecs k m = .ok ws → findSpectralWidths fit n vecs k' m = .ok ws' →
      ws = ws'.take k) := by
  constructor
  · intro sg hsg
    have hac : ∀ q, acorSpec n (fun i => sg q * vecs i q) = acorSpec n fun i => vecs i q := by
      intro q
      rcases hsg q with h | h
      · simp only [h, one_mul]
      · simp only [h, neg_one_mul]
        unfold acorSpec
        have hd : ∀ j : ℤ, dft1 n (fun i => ((-vecs i q : ℝ) : ℂ)) j = -dft1 n (fun i => ((vecs i q : ℝ) : ℂ)) j := by
          intro j
          simp only [dft1, Complex.ofReal_neg, neg_mul, sum_neg_distrib]
        simp only [hd, map_neg, sum_neg_distrib, neg_div]
        congr 2
        funext j
        congr 2
        funext p
        ring
    match k with
    | 0 => rfl
    | 1 => rfl
    | k + 2 =>
      simp only [findSpectralWidths, autocorrSpec, hac]
  · intro k' ws ws' hkk h h'
    match k, k', hkk, h, h' with
    | 0, _, _, h, _ => cases h
    | 1, _, _, h, _ => cases h
    | k + 2, 0, hkk, _, _ => omega
    | k + 2, 1, hkk, _, _ => omega
    | k + 2, k' + 2, hkk, h, h' =>
      simp only [findSpectralWidths, autocorrSpec, bind, Except.bind] at h h'
      obtain ⟨d, hd⟩ : ∃ d, k' + 2 = (k + 2) + d := ⟨k' - k, by omega⟩
      rw [hd, List.range_add, List.map_append] at h'
      unfold widthEstimate1D at h h'
      rw [List.mapM_append, h] at h'
      simp only [bind, Except.bind, pure, Except.pure] at h'
      split at h'
      · cases h'
      · rename_i r hr
        injection h' with h'
        have hlen : ∀ (l : List (Arr1 ℝ)) (g : Arr1 ℝ → Py (Option ℝ × Option ℝ)) rs, l.mapM g = .ok rs → rs.length = l.length := by
          intro l g
          induction l with
          | nil => intro rs h; cases h; rfl
          | cons x xs ih =>
            intro rs h
            rw [List.mapM_cons] at h
            cases hx : g x with
            | error e => rw [hx] at h; cases h
            | ok b =>
              cases hxs : xs.mapM g with
              | error e => rw [hx, hxs] at h; cases h
              | ok bs =>
                rw [hx, hxs] at h
                cases h
                rw [List.length_cons, List.length_cons, ih bs hxs]
        have := hlen _ _ _ h
        rw [List.length_map, List.length_range] at this
        rw [← h', ← this, List.take_left]

/-- Asking for one component fails. -/
theorem C91_one_violated (fit : ℝ → List (ℝ × ℝ) → Option (ℝ × ℝ)) (n : ℕ) (vecs : ℕ → ℕ → ℝ) (m : Width1D) :
    findSpectralWidths fit n vecs 1 m = .error .indexError := rfl

/-! ### Interpolated widths -/

private theorem firstMin {y : Arr1 ℝ} {m : ℕ} (h : FallsTo y.n y.get m) : ∃ rest, argrelmin y = m :: rest := by
  obtain ⟨h1, h2, h3, h4⟩ := h
  unfold argrelmin
  obtain ⟨d, hd⟩ : ∃ d, y.n = m + (d + 1) := ⟨y.n - m - 1, by omega⟩
  rw [hd, List.range_add, List.filter_append, List.filter_eq_nil_iff.2, List.nil_append, List.range_succ_eq_map, List.map_cons,
    List.filter_cons_of_pos]
  · exact ⟨_, rfl⟩
  · simp only [add_zero, decide_eq_true_eq]
    refine ⟨by omega, by omega, ?_, h4⟩
    have := h3 (m - 1) (by omega)
    rwa [Nat.sub_add_cancel (by omega)] at this
  · intro i hi
    have hi := List.mem_range.1 hi
    simp only [decide_eq_true_eq, not_and, not_lt]
    intro _ _ _
    exact (h3 i hi).le

private theorem interp_none_low : ∀ (l : List (ℝ × ℝ)) (v : ℝ), (∀ p ∈ l, v < p.1) → interpSorted l v = none
  | [], _, _ => rfl
  | [_], _, _ => rfl
  | p :: q :: rest, v, h => by
    rw [interpSorted, if_neg (fun hc => absurd hc.1 (not_le.2 (h p (by simp))))]
    exact interp_none_low (q :: rest) v fun r hr => h r (List.mem_cons_of_mem _ hr)

private theorem interp_none_high : ∀ (l : List (ℝ × ℝ)) (v : ℝ), (∀ p ∈ l, p.1 < v) → interpSorted l v = none
  | [], _, _ => rfl
  | [_], _, _ => rfl
  | p :: q :: rest, v, h => by
    rw [interpSorted, if_neg (fun hc => absurd hc.2 (not_le.2 (h q (by simp))))]
    exact interp_none_high (q :: rest) v fun r hr => h r (List.mem_cons_of_mem _ hr)

private theorem interp_bracket : ∀ (pre : List (ℝ × ℝ)) (p q : ℝ × ℝ) (post : List (ℝ × ℝ)) (v : ℝ), (∀ r ∈ pre, r.1 < v) → p.1 < v → v ≤ q.1 →
    interpSorted (pre ++ p :: q :: post) v = some (p.2 + (v - p.1) * ((q.2 - p.2) / (q.1 - p.1)))
  | [], p, q, post, v, _, h1, h2 => by
    rw [List.nil_append, interpSorted, if_pos ⟨h1.le, h2⟩]
  | [a], p, q, post, v, _, h1, h2 => by
    rw [List.singleton_append, interpSorted, if_neg (fun hc => absurd hc.2 (not_le.2 h1))]
    exact interp_bracket [] p q post v (by simp) h1 h2
  | a :: b :: pre, p, q, post, v, hp, h1, h2 => by
    rw [List.cons_append, List.cons_append, interpSorted, if_neg (fun hc => absurd hc.2 (not_le.2 (hp b (by simp))))]
    exact interp_bracket (b :: pre) p q post v (fun r hr => hp r (List.mem_cons_of_mem _ hr)) h1 h2

private theorem falls_lt {y : ℕ → ℝ} {m : ℕ} (h : ∀ i < m, y (i + 1) < y i) : ∀ i j, i < j → j ≤ m → y j < y i := by
  intro i j hij hj
  induction j with
  | zero => omega
  | succ j ih =>
    have h1 := h j (by omega)
    rcases Nat.lt_succ_iff_lt_or_eq.1 hij with h2 | rfl
    · exact h1.trans (ih h2 (by omega))
    · exact h1

private theorem sort_falling (y x : ℕ → ℝ) (m : ℕ) (h : ∀ i < m, y (i + 1) < y i) :
    ((List.range (m + 1)).map fun i => (y i, x i)).mergeSort (fun a b => decide (a.1 ≤ b.1)) =
      ((List.range (m + 1)).map fun i => (y i, x i)).reverse := by
  have hfall := falls_lt h
  have hs : (((List.range (m + 1)).map fun i => (y i, x i)).reverse).Pairwise (fun a b => a.1 < b.1) := by
    rw [List.pairwise_reverse, List.pairwise_map]
    refine (List.pairwise_lt_range (n := m + 1)).imp_of_mem ?_
    intro a b _ hb hab
    exact hfall a b hab (by have := List.mem_range.1 hb; omega)
  have hperm : ((List.range (m + 1)).map fun i => (y i, x i)).mergeSort (fun a b => decide (a.1 ≤ b.1)) |>.Perm
      ((List.range (m + 1)).map fun i => (y i, x i)).reverse := (List.mergeSort_perm _ _).trans (List.reverse_perm _).symm
  have hsort := List.pairwise_mergeSort (le := fun a b : ℝ × ℝ => decide (a.1 ≤ b.1))
    (fun a b c h1 h2 => by simp only [decide_eq_true_eq] at *; exact h1.trans h2)
    (fun a b => by simp only [Bool.or_eq_true, decide_eq_true_eq]; exact le_total _ _) ((List.range (m + 1)).map fun i => (y i, x i))
  have hnd : ∀ a b : ℝ × ℝ, a ∈ ((List.range (m + 1)).map fun i => (y i, x i)) → b ∈ ((List.range (m + 1)).map fun i => (y i, x i)) →
      a.1 = b.1 → a = b := by
    intro a b ha hb hab
    obtain ⟨i, hi, rfl⟩ := List.mem_map.1 ha
    obtain ⟨j, hj, rfl⟩ := List.mem_map.1 hb
    rcases lt_trichotomy i j with hij | rfl | hij
    · exact absurd hab (hfall i j hij (by have := List.mem_range.1 hj; omega)).ne'
    · rfl
    · exact absurd hab (hfall j i hij (by have := List.mem_range.1 hi; omega)).ne
  refine List.Perm.eq_of_pairwise ?_ hsort (hs.imp fun {a b} hab => decide_eq_true hab.le) hperm
  intro a b ha hb h1 h2
  simp only [decide_eq_true_eq] at h1 h2
  exact hnd a b ((List.mergeSort_perm _ _).mem_iff.1 ha) (List.mem_reverse.1 hb) (le_antisymm h1 h2)

private theorem interp_curve (y x : ℕ → ℝ) (m : ℕ) (hm : 0 < m) (h : ∀ i < m, y (i + 1) < y i) (L : ℝ) :
    (y 0 < L ∨ L < y m → interp1d ((List.range (m + 1)).map fun i => (y i, x i)) L = none) ∧
    (∀ i, 0 < i → i ≤ m → y i < L → L ≤ y (i - 1) → interp1d ((List.range (m + 1)).map fun i => (y i, x i)) L =
      some (x i + (L - y i) * ((x (i - 1) - x i) / (y (i - 1) - y i)))) ∧
    (y m = L → interp1d ((List.range (m + 1)).map fun i => (y i, x i)) L = some (x m)) := by
  have hfall := falls_lt h
  unfold interp1d
  rw [sort_falling y x m h]
  have hsplit : ∀ i, 0 < i → i ≤ m → ((List.range (m + 1)).map fun i => (y i, x i)).reverse =
      ((List.range (m - i)).map fun j => (y (i + 1 + j), x (i + 1 + j))).reverse ++ (y i, x i) :: (y (i - 1), x (i - 1)) ::
        ((List.range (i - 1)).map fun i => (y i, x i)).reverse := by
    intro i h0 hi
    have e1 : m + 1 = (i + 1) + (m - i) := by omega
    have e2 : i + 1 = (i - 1) + 1 + 1 := by omega
    have e3 : List.range (i + 1) = List.range (i - 1) ++ [i - 1] ++ [i] := by
      rw [e2, List.range_succ, List.range_succ, Nat.sub_add_cancel h0]
    rw [e1, List.range_add, e3]
    simp only [List.map_append, List.reverse_append, List.map_cons, List.map_nil, List.reverse_cons, List.reverse_nil, List.nil_append,
      List.map_map, List.append_assoc, List.cons_append]
    congr 1
  refine ⟨?_, ?_, ?_⟩
  · rintro (h0 | h0)
    · refine interp_none_high _ _ ?_
      intro p hp
      rw [List.mem_reverse] at hp
      obtain ⟨i, hi, rfl⟩ := List.mem_map.1 hp
      rcases Nat.eq_zero_or_pos i with rfl | hpos
      · exact h0
      · exact (hfall 0 i hpos (by have := List.mem_range.1 hi; omega)).trans h0
    · refine interp_none_low _ _ ?_
      intro p hp
      rw [List.mem_reverse] at hp
      obtain ⟨i, hi, rfl⟩ := List.mem_map.1 hp
      have hi := List.mem_range.1 hi
      rcases Nat.lt_or_ge i m with hlt | hge
      · exact h0.trans (hfall i m hlt le_rfl)
      · rw [show i = m by omega]; exact h0
  · intro i h0 hi h1 h2
    rw [hsplit i h0 hi]
    exact interp_bracket _ (y i, x i) (y (i - 1), x (i - 1)) _ L (by
      intro r hr
      rw [List.mem_reverse] at hr
      obtain ⟨j, hj, rfl⟩ := List.mem_map.1 hr
      have hj := List.mem_range.1 hj
      exact (hfall i (i + 1 + j) (by omega) (by omega)).trans h1) h1 h2
  · intro hL
    rw [hsplit m hm le_rfl]
    have hlt := hfall (m - 1) m (by omega) le_rfl
    rw [Nat.sub_self, List.range_zero, List.map_nil, List.reverse_nil, List.nil_append, interpSorted, if_pos ⟨hL.le, hL ▸ hlt.le⟩]
    simp [hL]

/-- A symmetric curve reaches its first minimum in its first half. -/
private theorem falls_half {n : ℕ} {y : ℕ → ℝ} {m : ℕ} (h : FallsTo n y m) (hs : ∀ j, j ≠ 0 → j < n → y (n - j) = y j) : 2 * m ≤ n := by
  by_contra hc
  have h1 := falls_lt h.2.2.1 (n - m) m (by omega) le_rfl
  rw [hs m (by have := h.1; omega) (by have := h.2.1; omega)] at h1
  exact lt_irrefl _ h1

private theorem acf_sym {n : ℕ} (v : ℕ → ℝ) : ∀ j, j ≠ 0 → j < n → eigAcf n v (n - j) = eigAcf n v j := by
  intro j h0 hj
  rw [← acor_get v hj, ← acor_get v (show n - j < n by omega)]
  exact (C62_spectrum_shape n v j hj).2.2 h0

private theorem falls_acor {n : ℕ} {v : ℕ → ℝ} {m : ℕ} (h : FallsTo n (eigAcf n v) m) : FallsTo (acorSpec n v).n (acorSpec n v).get m := by
  obtain ⟨h1, h2, h3, h4⟩ := h
  refine ⟨h1, h2, fun i hi => ?_, ?_⟩
  · rw [acor_get v (show i < n by omega), acor_get v (show i + 1 < n by omega)]; exact h3 i hi
  · rw [acor_get v (show m < n by omega), acor_get v (show m + 1 < n by omega)]; exact h4

/-- The widths by interpolation, for components whose autocorrelation falls to its first minimum before half its length: where the
autocorrelation takes the value 1/e.  That is the documented width only where the autocorrelation is 1 at lag 0. Missing: the other
autocorrelations (`C91_level_violated`, `C91_edge_violated`). -/
theorem C91_interp_partial (fit : ℝ → List (ℝ × ℝ) → Option (ℝ × ℝ)) (n : ℕ) (vecs : ℕ → ℕ → ℝ) (k : ℕ) (hk : 2 ≤ k) (m : ℕ → ℕ)
    (hm : ∀ q < k, FallsTo n (eigAcf n fun i => vecs i q) (m q) ∧ 2 * m q < n) :
    ∃ ws, findSpectralWidths fit n vecs k .interpolate = .ok ws ∧ ws.length = k ∧
      ∀ q < k, ∃ r, ws[q]? = some (r, some 0) ∧ TakesValue (eigAcf n fun i => vecs i q) (m q) (Real.exp (-1)) r ∧
        (eigAcf n (fun i => vecs i q) 0 = 1 → eigAcf n (fun i => vecs i q) (m q) < Real.exp (-1) →
          WidthOf n (eigAcf n fun i => vecs i q) r) := by
  have key : ∀ q : ℕ, ∃ r : Option ℝ, q < k → interpWidth (acorSpec n fun i => vecs i q) = .ok (r, some 0) ∧
      TakesValue (eigAcf n fun i => vecs i q) (m q) (Real.exp (-1)) r ∧
        (eigAcf n (fun i => vecs i q) 0 = 1 → eigAcf n (fun i => vecs i q) (m q) < Real.exp (-1) →
          WidthOf n (eigAcf n fun i => vecs i q) r) := by
    intro q
    by_cases hq : q < k
    swap
    · exact ⟨none, fun h => absurd h hq⟩
    obtain ⟨hf, hhalf⟩ := hm q hq
    have hf' := falls_acor hf
    obtain ⟨rest, hrest⟩ := firstMin hf'
    generalize hv : (fun i => vecs i q) = v at *
    have hN : (acorSpec n v).n = n := rfl
    have hval : interpWidth (acorSpec n v) = .ok (interp1d ((List.range (m q + 1)).map fun i => (eigAcf n v i, lagAxis n i)) (Real.exp (-1)), some 0) := by
      unfold interpWidth
      rw [hrest]
      simp only [if_pos hf.1, hN]
      congr 3
      refine List.map_congr_left fun i hi => ?_
      rw [acor_get v (show i < n by have := List.mem_range.1 hi; have := hf.2.1; omega)]
    obtain ⟨c1, c2, c3⟩ := interp_curve (eigAcf n v) (lagAxis n) (m q) (by have := hf.1; omega) hf.2.2.1 (Real.exp (-1))
    have hlag : ∀ i, i ≤ m q → lagAxis n i = i := fun i hi => lagAxis_half (by omega) (by omega)
    by_cases hout : eigAcf n v 0 < Real.exp (-1) ∨ Real.exp (-1) < eigAcf n v (m q)
    · refine ⟨none, fun _ => ⟨by rw [hval, c1 hout], hout, ?_⟩⟩
      intro h1 h2
      exfalso
      rcases hout with h | h
      · rw [h1] at h
        have : Real.exp (-1) < 1 := by rw [Real.exp_lt_one_iff]; norm_num
        linarith
      · linarith
    · push Not at hout
      rcases hout.2.lt_or_eq with hlt | heq
      · -- the first entry below the level
        have hex : ∃ j, eigAcf n v j < Real.exp (-1) := ⟨m q, hlt⟩
        classical
        set i := Nat.find hex
        have hi : eigAcf n v i < Real.exp (-1) := Nat.find_spec hex
        have him : i ≤ m q := Nat.find_min' hex hlt
        have hmin : ∀ j < i, Real.exp (-1) ≤ eigAcf n v j := fun j hj => not_lt.1 (Nat.find_min hex hj)
        have hi0 : 0 < i := by
          rcases Nat.eq_zero_or_pos i with h0 | h0
          · rw [h0] at hi; linarith [hout.1]
          · exact h0
        have hprev := hmin (i - 1) (by omega)
        have hden : 0 < eigAcf n v (i - 1) - eigAcf n v i := by linarith
        have hc : ((i - 1 : ℕ) : ℝ) = (i : ℝ) - 1 := by rw [Nat.cast_sub hi0]; simp
        refine ⟨some ((i : ℝ) + (Real.exp (-1) - eigAcf n v i) * (((i : ℝ) - 1 - i) / (eigAcf n v (i - 1) - eigAcf n v i))), fun _ => ⟨?_, Or.inl ⟨i, hi0, him, hi, hprev, ?_⟩, ?_⟩⟩
        · rw [hval, c2 i hi0 him hi hprev, hlag i him, hlag (i - 1) (by omega), hc]
        · field_simp
          ring
        · intro h1 _
          refine ⟨i, ⟨by have := hf.2.1; omega, by rw [h1, mul_one]; exact hi, fun j hj => by rw [h1, mul_one]; exact hmin j hj⟩, ?_, ?_, ?_⟩
          · rw [show ((i : ℝ) - 1 - i) = -1 by ring, ← sub_nonneg]
            have : (Real.exp (-1) - eigAcf n v i) / (eigAcf n v (i - 1) - eigAcf n v i) ≤ 1 := by
              rw [div_le_one hden]; linarith
            have e : (i : ℝ) + (Real.exp (-1) - eigAcf n v i) * (-1 / (eigAcf n v (i - 1) - eigAcf n v i)) - ((i : ℝ) - 1) =
                1 - (Real.exp (-1) - eigAcf n v i) / (eigAcf n v (i - 1) - eigAcf n v i) := by ring
            rw [e]; linarith
          · rw [show ((i : ℝ) - 1 - i) = -1 by ring, ← sub_pos]
            have : 0 < (Real.exp (-1) - eigAcf n v i) / (eigAcf n v (i - 1) - eigAcf n v i) := div_pos (by linarith) hden
            have e : (i : ℝ) - ((i : ℝ) + (Real.exp (-1) - eigAcf n v i) * (-1 / (eigAcf n v (i - 1) - eigAcf n v i))) =
                (Real.exp (-1) - eigAcf n v i) / (eigAcf n v (i - 1) - eigAcf n v i) := by ring
            rw [e]; exact this
          · unfold OnLine
            rw [h1]
            field_simp
            ring
      · refine ⟨some (m q : ℝ), fun _ => ⟨by rw [hval, c3 heq, hlag (m q) le_rfl], Or.inr ⟨heq, rfl⟩, ?_⟩⟩
        intro _ h2
        exact absurd heq h2.ne
  choose g hg using key
  refine ⟨_, widths_ok fit n vecs k hk .interpolate (fun q => (g q, some 0)) _ rfl (fun q hq => (hg q hq).1), by simp, ?_⟩
  intro q hq
  refine ⟨g q, ?_, (hg q hq).2⟩
  rw [List.getElem?_map, List.getElem?_range hq]
  rfl

private theorem acf_zero (n : ℕ) (v : ℕ → ℝ) : eigAcf n v 0 = ∑ b ∈ range n, headless v b ^ 2 := by
  unfold eigAcf
  rw [Nat.cast_zero, circAcf1_zero]

private theorem acf_zero_lt {n : ℕ} (hn : 0 < n) (v : ℕ → ℝ) (hunit : ∑ i ∈ range n, v i ^ 2 = 1) (h0 : v 0 ≠ 0) : eigAcf n v 0 < 1 := by
  rw [acf_zero, ← hunit]
  refine sum_lt_sum (fun i _ => ?_) ⟨0, mem_range.2 hn, ?_⟩
  · unfold headless
    split_ifs
    · rw [zero_pow two_ne_zero]; positivity
    · exact le_rfl
  · unfold headless
    rw [if_pos rfl, zero_pow two_ne_zero]
    positivity

/-- Interpolation takes the absolute value 1/e although the autocorrelation of a unit eigenvector is below 1 at lag 0 unless its first
entry is 0: the widths are not the documented ones. -/
theorem C91_level_violated (fit : ℝ → List (ℝ × ℝ) → Option (ℝ × ℝ)) (n : ℕ) (vecs : ℕ → ℕ → ℝ) (k : ℕ) (hk : 2 ≤ k) (m : ℕ → ℕ)
    (hm : ∀ q < k, FallsTo n (eigAcf n fun i => vecs i q) (m q) ∧ 2 * m q < n)
    (hunit : ∀ q < k, ∑ i ∈ range n, vecs i q ^ 2 = 1) (h0 : ∀ q < k, vecs 0 q ≠ 0)
    (hlow : ∀ q < k, eigAcf n (fun i => vecs i q) (m q) < Real.exp (-1) * eigAcf n (fun i => vecs i q) 0) :
    ∃ ws, findSpectralWidths fit n vecs k .interpolate = .ok ws ∧ ws.length = k ∧
      ∀ q < k, ∃ r, ws[q]? = some (r, some 0) ∧ ¬ WidthOf n (eigAcf n fun i => vecs i q) r := by
  obtain ⟨ws, h1, h2, h3⟩ := C91_interp_partial fit n vecs k hk m hm
  refine ⟨ws, h1, h2, fun q hq => ?_⟩
  obtain ⟨r, hr, hT, -⟩ := h3 q hq
  refine ⟨r, hr, ?_⟩
  obtain ⟨hf, hhalf⟩ := hm q hq
  have hn : 0 < n := by have := hf.1; omega
  have hlow := hlow q hq
  have hlt := acf_zero_lt hn (fun i => vecs i q) (hunit q hq) (h0 q hq)
  generalize (fun i => vecs i q) = v at *
  have he := Real.exp_pos (-1)
  have hL : Real.exp (-1) * eigAcf n v 0 < Real.exp (-1) := by nlinarith
  have hfall := falls_lt hf.2.2.1
  cases r with
  | none =>
    intro hW
    exact absurd (hW (m q) (by omega)) (not_le.2 hlow)
  | some w =>
    rintro ⟨i, ⟨hin, hi1, hi2⟩, hw1, hw2, hline⟩
    have him : i ≤ m q := by
      by_contra hc
      exact absurd (hi2 (m q) (by omega)) (not_le.2 hlow)
    have hi0 : 0 < i := by
      rcases Nat.eq_zero_or_pos i with rfl | h
      · exfalso
        have : eigAcf n v (m q) < eigAcf n v 0 := hfall 0 (m q) (by have := hf.1; omega) le_rfl
        have : 0 ≤ eigAcf n v 0 := by rw [acf_zero]; exact sum_nonneg fun _ _ => sq_nonneg _
        have : Real.exp (-1) < 1 := by rw [Real.exp_lt_one_iff]; norm_num
        nlinarith
      · exact h
    rcases hT with ⟨j, hj0, hjm, hj1, hj2, hjl⟩ | ⟨hm1, hm2⟩
    · rcases lt_trichotomy i j with hij | rfl | hij
      · -- the level is passed before
        rcases Nat.lt_or_ge i (j - 1) with h | h
        · linarith [hfall i (j - 1) h (by omega)]
        · rw [show j - 1 = i by omega] at hj2; linarith
      · have hd : eigAcf n v i - eigAcf n v (i - 1) < 0 := by
          have := hfall (i - 1) i (by omega) him
          linarith
        unfold OnLine at hline
        have : Real.exp (-1) = Real.exp (-1) * eigAcf n v 0 := hjl.symm.trans hline
        linarith
      · have : eigAcf n v (j - 1) + (w - ((j : ℝ) - 1)) * (eigAcf n v j - eigAcf n v (j - 1)) = Real.exp (-1) := hjl
        have hd : eigAcf n v j - eigAcf n v (j - 1) < 0 := by
          have := hfall (j - 1) j (by omega) hjm
          linarith
        -- the line is already below the level at `j`
        have hwj : (j : ℝ) ≤ w := by
          have : ((j : ℕ) : ℝ) ≤ (i : ℝ) - 1 := by
            have : j + 1 ≤ i := hij
            have : ((j + 1 : ℕ) : ℝ) ≤ i := by exact_mod_cast this
            push_cast at this
            linarith
          linarith
        nlinarith
    · have : eigAcf n v (m q) < Real.exp (-1) := hlow.trans hL
      linarith

/-- With an even number of channels the lag of the Nyquist channel is negative: a width in the last channel before it comes out too
small, whatever the level. -/
theorem C91_edge_violated (v : ℕ → ℝ) (h : ℕ) (hf : FallsTo (2 * h) (eigAcf (2 * h) v) h)
    (h1 : eigAcf (2 * h) v h < Real.exp (-1)) (h2 : Real.exp (-1) < eigAcf (2 * h) v (h - 1)) :
    ∃ w, interpWidth (acorSpec (2 * h) v) = .ok (some w, some 0) ∧ w < (h : ℝ) - 1 ∧ ¬ TakesValue (eigAcf (2 * h) v) h (Real.exp (-1)) (some w) := by
  have hf' := falls_acor hf
  obtain ⟨rest, hrest⟩ := firstMin hf'
  have hN : (acorSpec (2 * h) v).n = 2 * h := rfl
  have hh := hf.1
  have hval : interpWidth (acorSpec (2 * h) v) =
      .ok (interp1d ((List.range (h + 1)).map fun i => (eigAcf (2 * h) v i, lagAxis (2 * h) i)) (Real.exp (-1)), some 0) := by
    unfold interpWidth
    rw [hrest]
    simp only [if_pos hf.1, hN]
    congr 3
    refine List.map_congr_left fun i hi => ?_
    rw [acor_get v (show i < 2 * h by have := List.mem_range.1 hi; omega)]
  obtain ⟨-, c2, -⟩ := interp_curve (eigAcf (2 * h) v) (lagAxis (2 * h)) h (by omega) hf.2.2.1 (Real.exp (-1))
  have l1 : lagAxis (2 * h) h = -(h : ℝ) := by
    rw [lagAxis_second (by omega) (by omega)]; push_cast; ring
  have l2 : lagAxis (2 * h) (h - 1) = (h : ℝ) - 1 := by
    rw [lagAxis_half (by omega) (by omega), Nat.cast_sub (by omega)]; simp
  have hden : 0 < eigAcf (2 * h) v (h - 1) - eigAcf (2 * h) v h := by linarith
  have hh1 : (1 : ℝ) < h := by exact_mod_cast hh
  set w := -(h : ℝ) + (Real.exp (-1) - eigAcf (2 * h) v h) * (((h : ℝ) - 1 - -(h : ℝ)) / (eigAcf (2 * h) v (h - 1) - eigAcf (2 * h) v h)) with hw
  have hlt : w < (h : ℝ) - 1 := by
    have hfrac : (Real.exp (-1) - eigAcf (2 * h) v h) / (eigAcf (2 * h) v (h - 1) - eigAcf (2 * h) v h) < 1 := by
      rw [div_lt_one hden]; linarith
    have e : w = -(h : ℝ) + (2 * h - 1) * ((Real.exp (-1) - eigAcf (2 * h) v h) / (eigAcf (2 * h) v (h - 1) - eigAcf (2 * h) v h)) := by
      rw [hw]; ring
    rw [e]
    nlinarith
  refine ⟨w, ?_, hlt, ?_⟩
  · rw [hval, c2 h (by omega) le_rfl h1 h2.le, l1, l2]
  · have hfall := falls_lt hf.2.2.1
    rintro (⟨i, hi0, hih, hi1, hi2, hl⟩ | ⟨hm1, hm2⟩)
    · have : i = h := by
        by_contra hne
        have : eigAcf (2 * h) v (h - 1) ≤ eigAcf (2 * h) v i := by
          rcases Nat.lt_or_ge i (h - 1) with h5 | h5
          · exact (hfall i (h - 1) h5 (by omega)).le
          · rw [show i = h - 1 by omega]
        linarith
      subst this
      have : 0 < (w - ((i : ℝ) - 1)) * (eigAcf (2 * i) v i - eigAcf (2 * i) v (i - 1)) := mul_pos_of_neg_of_neg (by linarith) (by linarith)
      linarith
    · linarith

/-- When the autocorrelation has its first minimum at lag 1 the interpolated width is 0 with error 0. -/
theorem C91_first_lag_violated (n : ℕ) (v : ℕ → ℝ) (hn : 3 ≤ n) (h1 : eigAcf n v 1 < eigAcf n v 0) (h2 : eigAcf n v 1 < eigAcf n v 2) :
    interpWidth (acorSpec n v) = .ok (some 0, some 0) := by
  have hmin : ∃ rest, argrelmin (acorSpec n v) = 1 :: rest := by
    unfold argrelmin
    obtain ⟨d, hd⟩ : ∃ d, n = 1 + (d + 1) := ⟨n - 2, by omega⟩
    rw [show (acorSpec n v).n = n from rfl]
    rw [show List.range n = 0 :: 1 :: (List.range d).map fun i => 2 + i by
      rw [show n = 2 + d by omega, List.range_add]
      rfl]
    rw [List.filter_cons_of_neg (by simp), List.filter_cons_of_pos]
    · exact ⟨_, rfl⟩
    · simp only [decide_eq_true_eq]
      rw [acor_get v (show 1 < n by omega), acor_get v (show 1 - 1 < n by omega), acor_get v (show 1 + 1 < n by omega)]
      exact ⟨by omega, by omega, h1, h2⟩
  obtain ⟨rest, hrest⟩ := hmin
  unfold interpWidth
  rw [hrest]
  rfl

private theorem no_min {h : ℕ} (v : ℕ → ℝ) (hfall : ∀ i < h, eigAcf (2 * h + 1) v (i + 1) < eigAcf (2 * h + 1) v i) :
    argrelmin (acorSpec (2 * h + 1) v) = [] := by
  unfold argrelmin
  rw [List.filter_eq_nil_iff]
  intro i hi
  have hi : i < 2 * h + 1 := List.mem_range.1 hi
  simp only [decide_eq_true_eq]
  rintro ⟨h0, h1, h2, h3⟩
  have h1 : i + 1 < 2 * h + 1 := h1
  rw [acor_get v hi, acor_get v (show i - 1 < 2 * h + 1 by omega)] at h2
  rw [acor_get v hi, acor_get v h1] at h3
  have hs := acf_sym (n := 2 * h + 1) v
  rcases Nat.lt_or_ge i h with hlt | hge
  · linarith [hfall i hlt]
  · rcases hge.lt_or_eq with hgt | rfl
    · -- the second half rises
      have e1 := hs i (by omega) hi
      have e2 := hs (i - 1) (by omega) (by omega)
      rw [← e1, ← e2, show 2 * h + 1 - (i - 1) = (2 * h + 1 - i) + 1 by omega] at h2
      rcases Nat.lt_or_ge (2 * h + 1 - i) h with h5 | h5
      · linarith [hfall _ h5]
      · have : 2 * h + 1 - i = h := by omega
        have e3 := hs (h + 1) (by omega) (by omega)
        rw [show 2 * h + 1 - (h + 1) = h by omega] at e3
        rw [this] at h2
        linarith
    · have e3 := hs (h + 1) (by omega) (by omega)
      rw [show 2 * h + 1 - (h + 1) = h by omega] at e3
      linarith

/-- With an odd number of channels, an autocorrelation that falls all the way to the middle has no minimum for the code: 'interpolate'
and 'fit' raise IndexError, for all components. -/
theorem C91_odd_violated (fit : ℝ → List (ℝ × ℝ) → Option (ℝ × ℝ)) (h : ℕ) (vecs : ℕ → ℕ → ℝ) (k : ℕ) (hk : 2 ≤ k) (q : ℕ) (hq : q < k)
    (hfall : ∀ i < h, eigAcf (2 * h + 1) (fun i => vecs i q) (i + 1) < eigAcf (2 * h + 1) (fun i => vecs i q) i) :
    findSpectralWidths fit (2 * h + 1) vecs k .interpolate = .error .indexError ∧
    findSpectralWidths fit (2 * h + 1) vecs k .fit = .error .indexError := by
  have hno := no_min (fun i => vecs i q) hfall
  have herr : ∀ (g : Arr1 ℝ → Py (Option ℝ × Option ℝ)) (l : List (Arr1 ℝ)), (∀ y e, g y = .error e → e = .indexError) →
      (∃ y ∈ l, g y = .error .indexError) → l.mapM g = .error .indexError := by
    intro g l hg
    induction l with
    | nil => rintro ⟨y, hy, -⟩; simp at hy
    | cons x xs ih =>
      rintro ⟨y, hy, hyg⟩
      rw [List.mapM_cons]
      cases hx : g x with
      | error e => rw [hg x e hx]; rfl
      | ok b =>
        rcases List.mem_cons.1 hy with rfl | hy
        · rw [hyg] at hx; cases hx
        · rw [ih ⟨y, hy, hyg⟩]; rfl
  obtain ⟨k, rfl⟩ : ∃ j, k = j + 2 := ⟨k - 2, by omega⟩
  simp only [findSpectralWidths, autocorrSpec, bind, Except.bind, widthEstimate1D]
  constructor
  · refine herr interpWidth _ ?_ ⟨_, List.mem_map.2 ⟨q, List.mem_range.2 hq, rfl⟩, ?_⟩
    · intro y e he
      unfold interpWidth at he
      split at he
      · cases he; rfl
      · split_ifs at he
    · unfold interpWidth; rw [hno]
  · refine herr (fitWidth fit) _ ?_ ⟨_, List.mem_map.2 ⟨q, List.mem_range.2 hq, rfl⟩, ?_⟩
    · intro y e he
      unfold fitWidth at he
      split at he
      · cases he; rfl
      · simp only at he
        split at he <;> cases he
    · unfold fitWidth; rw [hno]

/-! ### Fitted widths -/

/-- Components whose autocorrelation is a Gaussian up to its first minimum: any least-squares fit gives the lag where the Gaussian has
fallen to 1/e of its maximum. -/
theorem C91_fit (fit : ℝ → List (ℝ × ℝ) → Option (ℝ × ℝ)) (n : ℕ) (vecs : ℕ → ℕ → ℝ) (k : ℕ) (hk : 2 ≤ k) (m : ℕ → ℕ) (s : ℕ → ℝ)
    (hm : ∀ q < k, FallsTo n (eigAcf n fun i => vecs i q) (m q)) (hs : ∀ q < k, 0 < s q)
    (hg : ∀ q < k, ∀ i < m q, eigAcf n (fun i => vecs i q) i =
      eigAcf n (fun i => vecs i q) 0 * Real.exp (-(i : ℝ) ^ 2 / (2 * s q ^ 2)))
    (hfit : ∀ q < k, ∀ A pts, A = eigAcf n (fun i => vecs i q) 0 → pts = (List.range (m q)).map (fun i : ℕ => ((i : ℝ), eigAcf n (fun i => vecs i q) i)) →
      ∃ t e, fit A pts = some (t, e) ∧ t ≠ 0 ∧ ∀ t', t' ≠ 0 → gaussResid A pts t ≤ gaussResid A pts t') :
    ∃ ws, findSpectralWidths fit n vecs k .fit = .ok ws ∧ ws.length = k ∧
      ∀ q < k, ∃ w e, ws[q]? = some (some w, some e) ∧ 0 ≤ w ∧ Real.exp (-w ^ 2 / (2 * s q ^ 2)) = Real.exp (-1) := by
  have key : ∀ q : ℕ, ∃ we : ℝ × ℝ, q < k → fitWidth fit (acorSpec n fun i => vecs i q) = .ok (some we.1, some we.2) ∧ 0 ≤ we.1 ∧
      Real.exp (-we.1 ^ 2 / (2 * s q ^ 2)) = Real.exp (-1) := by
    intro q
    by_cases hq : q < k
    swap
    · exact ⟨(0, 0), fun h => absurd h hq⟩
    have hf := hm q hq
    have hg := hg q hq
    have hs := hs q hq
    obtain ⟨t, e, ht, ht0, hmin⟩ := hfit q hq _ _ rfl rfl
    generalize hv : (fun i => vecs i q) = v at *
    obtain ⟨rest, hrest⟩ := firstMin (falls_acor hf)
    have hhalf := falls_half hf (acf_sym v)
    have hn : m q + 1 < n := hf.2.1
    have hm1 := hf.1
    set pts := (List.range (m q)).map (fun i : ℕ => ((i : ℝ), eigAcf n v i)) with hpts
    have hval : fitWidth fit (acorSpec n v) = .ok (some (|t| * Real.sqrt 2), some (e * Real.sqrt 2)) := by
      unfold fitWidth
      rw [hrest]
      simp only [if_pos hm1]
      have hN : (acorSpec n v).n = n := rfl
      have e1 : (List.range (m q)).map (fun i => (|lagAxis (acorSpec n v).n i|, (acorSpec n v).get i)) = pts := by
        refine List.map_congr_left fun i hi => ?_
        have hi := List.mem_range.1 hi
        rw [hN, lagAxis_half (by omega) (by omega), acor_get v (by omega), abs_of_nonneg (Nat.cast_nonneg i)]
      rw [e1, acor_get v (by omega), ht]
    refine ⟨(|t| * Real.sqrt 2, e * Real.sqrt 2), fun _ => ⟨hval, by positivity, ?_⟩⟩
    have hy0 : 0 < eigAcf n v 0 := by
      have h1 := hf.2.2.1 0 (by omega)
      have h2 : 0 ≤ eigAcf n v 0 := by rw [acf_zero]; exact sum_nonneg fun _ _ => sq_nonneg _
      rcases h2.lt_or_eq with h | h
      · exact h
      · exfalso
        have := hg 1 hm1
        rw [← h, zero_mul] at this
        rw [zero_add, this, ← h] at h1
        exact lt_irrefl _ h1
    have hzero : gaussResid (eigAcf n v 0) pts (s q) = 0 := by
      unfold gaussResid
      rw [hpts, List.map_map]
      refine List.sum_eq_zero ?_
      intro x hx
      obtain ⟨i, hi, rfl⟩ := List.mem_map.1 hx
      simp only [Function.comp]
      rw [← hg i (List.mem_range.1 hi), sub_self, zero_pow two_ne_zero]
    have hle := hmin (s q) hs.ne'
    rw [hzero] at hle
    have hterm : (eigAcf n v 1 - eigAcf n v 0 * Real.exp (-((1 : ℕ) : ℝ) ^ 2 / (2 * t ^ 2))) ^ 2 ≤ gaussResid (eigAcf n v 0) pts t := by
      unfold gaussResid
      refine List.single_le_sum ?_ _ ?_
      · intro x hx
        obtain ⟨p, -, rfl⟩ := List.mem_map.1 hx
        exact sq_nonneg _
      · rw [List.mem_map]
        refine ⟨(((1 : ℕ) : ℝ), eigAcf n v 1), ?_, rfl⟩
        rw [hpts, List.mem_map]
        exact ⟨1, List.mem_range.2 hm1, rfl⟩
    have heq : eigAcf n v 1 - eigAcf n v 0 * Real.exp (-((1 : ℕ) : ℝ) ^ 2 / (2 * t ^ 2)) = 0 :=
      pow_eq_zero_iff two_ne_zero |>.1 (le_antisymm (hterm.trans hle) (sq_nonneg _))
    have hg1 := hg 1 hm1
    rw [hg1, ← mul_sub] at heq
    have hexp := (mul_eq_zero.1 heq).resolve_left hy0.ne'
    have hexp' := Real.exp_injective (sub_eq_zero.1 hexp)
    have hsq : t ^ 2 = s q ^ 2 := by
      have ht2 : 0 < t ^ 2 := by positivity
      have hs2 : 0 < s q ^ 2 := by positivity
      rw [div_eq_div_iff (by positivity) (by positivity)] at hexp'
      simp only [Nat.cast_one] at hexp'
      linarith
    rw [mul_pow, sq_abs, Real.sq_sqrt (by norm_num), hsq]
    congr 1
    field_simp
  choose g hg' using key
  refine ⟨_, widths_ok fit n vecs k hk .fit (fun q => (some (g q).1, some (g q).2)) _ rfl (fun q hq => (hg' q hq).1), by simp, ?_⟩
  intro q hq
  refine ⟨(g q).1, (g q).2, ?_, (hg' q hq).2⟩
  rw [List.getElem?_map, List.getElem?_range hq]
  rfl

/-! ### The hypotheses can be met -/

private theorem acf_div (n : ℕ) (z : ℕ → ℝ) (c : ℝ) (j : ℕ) : eigAcf n (fun i => z i / c) j = eigAcf n z j / c ^ 2 := by
  unfold eigAcf circAcf1
  rw [sum_div]
  refine sum_congr rfl fun b _ => ?_
  have : ∀ i, headless (fun i => z i / c) i = headless z i / c := by
    intro i
    unfold headless
    split_ifs
    · rw [zero_div]
    · rfl
  rw [this, this, div_mul_div_comm, pow_two]

private def sixA : ℕ → ℝ := fun i => ([1, 0, 0, -1, 0, 1] : List ℝ).getD i 0
private def sixB : ℕ → ℝ := fun i => ([1, -1, 0, 1, 0, 0] : List ℝ).getD i 0
private noncomputable def sixV : ℕ → ℕ → ℝ := fun i q => (if q = 0 then sixA i else sixB i) / Real.sqrt 3

private theorem six_acf (q : ℕ) : eigAcf 6 (fun i => sixV i q) 0 = 2 / 3 ∧ eigAcf 6 (fun i => sixV i q) 1 = 0 ∧
    eigAcf 6 (fun i => sixV i q) 2 = -1 / 3 ∧ eigAcf 6 (fun i => sixV i q) 3 = 0 := by
  have h3 : Real.sqrt 3 ^ 2 = 3 := Real.sq_sqrt (by norm_num)
  unfold sixV
  by_cases hq : q = 0
  · simp only [if_pos hq, acf_div, h3]
    refine ⟨?_, ?_, ?_, ?_⟩ <;> simp [eigAcf, circAcf1, headless, sum_range_succ, sixA] <;> norm_num [headless, sixA]
  · simp only [if_neg hq, acf_div, h3]
    refine ⟨?_, ?_, ?_, ?_⟩ <;> simp [eigAcf, circAcf1, headless, sum_range_succ, sixB] <;> norm_num [headless, sixB]

/-- Two orthonormal eigenvectors of a cube of six channels. -/
example : ∃ ws, findSpectralWidths (fun _ _ => none) 6 sixV 2 .interpolate = .ok ws ∧ ws.length = 2 ∧
    ∀ q < 2, ∃ r, ws[q]? = some (r, some 0) ∧ ¬ WidthOf 6 (eigAcf 6 fun i => sixV i q) r := by
  have h3 : Real.sqrt 3 ^ 2 = 3 := Real.sq_sqrt (by norm_num)
  refine C91_level_violated _ 6 sixV 2 le_rfl (fun _ => 2) ?_ ?_ ?_ ?_
  · intro q _
    obtain ⟨h0, h1, h2, h3⟩ := six_acf q
    refine ⟨⟨by norm_num, by norm_num, ?_, by rw [h2, h3]; norm_num⟩, by norm_num⟩
    intro i hi
    interval_cases i
    · rw [h0, h1]; norm_num
    · rw [h1, h2]; norm_num
  · intro q hq
    unfold sixV
    simp only [div_pow, h3, ← sum_div]
    interval_cases q <;> norm_num [sum_range_succ, sixA, sixB]
  · intro q hq
    unfold sixV
    have : (0 : ℝ) < Real.sqrt 3 := Real.sqrt_pos.2 (by norm_num)
    interval_cases q <;> simp [sixA, sixB]
  · intro q _
    obtain ⟨h0, h1, h2, h3⟩ := six_acf q
    rw [h0, h2]
    have := Real.exp_pos (-1)
    linarith

private def fourV : ℕ → ℝ := fun i => ([1, 1, 2, 1] : List ℝ).getD i 0

private theorem four_acf : eigAcf 4 fourV 0 = 6 ∧ eigAcf 4 fourV 1 = 4 ∧ eigAcf 4 fourV 2 = 2 ∧ eigAcf 4 fourV 3 = 4 := by
  refine ⟨?_, ?_, ?_, ?_⟩ <;> simp [eigAcf, circAcf1, headless, sum_range_succ, fourV] <;> norm_num [headless, fourV]

private theorem four_falls (c : ℝ) (hc : 0 < c) : FallsTo 4 (eigAcf 4 fun i => fourV i / c) 2 := by
  obtain ⟨h0, h1, h2, h3⟩ := four_acf
  have hc2 : 0 < c ^ 2 := by positivity
  refine ⟨by norm_num, by norm_num, ?_, ?_⟩
  · intro i hi
    rw [acf_div, acf_div]
    refine div_lt_div_of_pos_right ?_ hc2
    interval_cases i
    · rw [h0, h1]; norm_num
    · rw [h1, h2]; norm_num
  · rw [acf_div, acf_div]
    refine div_lt_div_of_pos_right ?_ hc2
    rw [h2, h3]; norm_num

/-- A unit eigenvector of four channels: a negative width. -/
example : ∃ w, interpWidth (acorSpec 4 fun i => fourV i / Real.sqrt 7) = .ok (some w, some 0) ∧ w < ((2 : ℕ) : ℝ) - 1 := by
  have h7 : Real.sqrt 7 ^ 2 = 7 := Real.sq_sqrt (by norm_num)
  obtain ⟨h0, h1, h2, h3⟩ := four_acf
  have e1 : Real.exp (-1) < 4 / 7 := by
    rw [Real.exp_neg, inv_lt_comm₀ (Real.exp_pos _) (by norm_num)]
    have := Real.exp_one_gt_d9
    norm_num at this ⊢
    linarith
  have e2 : 2 / 7 < Real.exp (-1) := by
    rw [Real.exp_neg, lt_inv_comm₀ (by norm_num) (Real.exp_pos _)]
    have := Real.exp_one_lt_d9
    norm_num at this ⊢
    linarith
  obtain ⟨w, hw, hlt, -⟩ := C91_edge_violated (fun i => fourV i / Real.sqrt 7) 2 (four_falls _ (Real.sqrt_pos.2 (by norm_num)))
    (by rw [acf_div, show 2 * 2 = 4 from rfl, h2, h7]; exact e2)
    (by rw [acf_div, show 2 * 2 = 4 from rfl, show 2 - 1 = 1 from rfl, h1, h7]; exact e1)
  exact ⟨w, hw, hlt⟩

private def pairV : ℕ → ℝ := fun i => ([0, 1, 0, 1] : List ℝ).getD i 0
private def fiveV : ℕ → ℝ := fun i => ([0, 1, 2, 1, 0] : List ℝ).getD i 0

/-- An autocorrelation with its first minimum at lag 1. -/
example : interpWidth (acorSpec 4 pairV) = .ok (some 0, some 0) := by
  refine C91_first_lag_violated 4 _ (by norm_num) ?_ ?_ <;>
    simp [eigAcf, circAcf1, headless, sum_range_succ, pairV] <;> norm_num [headless, pairV]

/-- Five channels, an autocorrelation of 6, 4, 1, 1, 4. -/
example : findSpectralWidths (fun _ _ => none) 5 (fun i _ => fiveV i) 2 .fit = .error .indexError := by
  refine (C91_odd_violated (fun _ _ => none) 2 (fun i _ => fiveV i) 2 le_rfl 0 (by norm_num) ?_).2
  intro i hi
  interval_cases i <;> simp [eigAcf, circAcf1, headless, sum_range_succ, fiveV] <;> norm_num [headless, fiveV]

/-- An autocorrelation of 6, 4 before its minimum, fitted exactly. -/
example : ∃ (fit : ℝ → List (ℝ × ℝ) → Option (ℝ × ℝ)) (ws : _) (s : ℝ), 0 < s ∧
    findSpectralWidths fit 4 (fun i _ => fourV i) 2 .fit = .ok ws ∧ ws.length = 2 ∧
    ∀ q < 2, ∃ w e, ws[q]? = some (some w, some e) ∧ 0 ≤ w ∧ Real.exp (-w ^ 2 / (2 * s ^ 2)) = Real.exp (-1) := by
  obtain ⟨h0, h1, h2, h3⟩ := four_acf
  have hlog : 0 < Real.log (3 / 2) := Real.log_pos (by norm_num)
  set s := Real.sqrt (1 / (2 * Real.log (3 / 2))) with hs
  have hs0 : 0 < s := Real.sqrt_pos.2 (by positivity)
  have hs2 : 2 * s ^ 2 = (Real.log (3 / 2))⁻¹ := by
    rw [hs, Real.sq_sqrt (by positivity)]
    field_simp
  have hexp : Real.exp (-((1 : ℕ) : ℝ) ^ 2 / (2 * s ^ 2)) = 2 / 3 := by
    rw [hs2]
    simp only [Nat.cast_one, one_pow, div_inv_eq_mul, neg_mul, one_mul]
    rw [Real.exp_neg, Real.exp_log (by norm_num)]
    norm_num
  have hgauss : ∀ i < 2, eigAcf 4 fourV i = eigAcf 4 fourV 0 * Real.exp (-(i : ℝ) ^ 2 / (2 * s ^ 2)) := by
    intro i hi
    interval_cases i
    · simp
    · rw [hexp, h0, h1]; norm_num
  obtain ⟨ws, hw⟩ := C91_fit (fun _ _ => some (s, 0)) 4 (fun i _ => fourV i) 2 le_rfl (fun _ => 2) (fun _ => s)
    (fun q _ => by have := four_falls 1 one_pos; simpa only [div_one] using this) (fun _ _ => hs0) (fun _ _ => hgauss) (by
      rintro q - A pts rfl rfl
      refine ⟨s, 0, rfl, hs0.ne', fun t' _ => ?_⟩
      have hz : gaussResid (eigAcf 4 fourV 0) ((List.range 2).map (fun i : ℕ => ((i : ℝ), eigAcf 4 fourV i))) s = 0 := by
        unfold gaussResid
        refine List.sum_eq_zero ?_
        intro x hx
        rw [List.map_map] at hx
        obtain ⟨i, hi, rfl⟩ := List.mem_map.1 hx
        simp only [Function.comp]
        rw [← hgauss i (List.mem_range.1 hi), sub_self, zero_pow two_ne_zero]
      rw [hz]
      unfold gaussResid
      refine List.sum_nonneg ?_
      intro x hx
      obtain ⟨p, -, rfl⟩ := List.mem_map.1 hx
      exact sq_nonneg _)
  exact ⟨_, ws, s, hs0, hw⟩

/-- Channels of -250 m/s: a width of 4 channels is 1 km/s. -/
example : spectralWidth (some (some ⟨-250, .velocity, 1⟩)) [some 4, none] (.axis .velocity 1000) = .ok [some 1, none] := by
  have := (C91_units ⟨-250, .velocity, 1⟩ (by norm_num) (by norm_num) [some 4, none]).1 1000 (by norm_num)
  rw [this]
  norm_num [channelIn]

end TS
