import Verif.Model.MvcWeights
import Verif.Props.C45
import Mathlib.Tactic.FieldSimp
import Mathlib.Tactic.NormNum

/-! C104 — the centroid spectrum does not depend on the units, and errors act as weights. -/

namespace TS
open Finset

namespace Spec

/-- Two arrays agree up to one factor. -/
def SameUpToFactor (a b : Arr2 (Option ℝ)) : Prop :=
  a.n = b.n ∧ a.m = b.m ∧ ∃ f : ℝ, f ≠ 0 ∧ ∀ i < a.n, ∀ j < a.m, b.get i j = (a.get i j).map (f * ·)

/-- The three maps given as velocity `V`, intensity `I` and line width `L`. -/
def givenMaps (n m : ℕ) (V I L : ℕ → ℕ → ℝ) : MvcState := ⟨fullMap n m V, fullMap n m I, fullMap n m L⟩

/-- A periodic displacement of a map. -/
def displaced (n m : ℕ) (s t : ℤ) (f : ℕ → ℕ → ℝ) (i j : ℕ) : ℝ :=
  f (((i : ℤ) - s) % n).toNat (((j : ℤ) - t) % m).toNat

/-- A dictionary with the maps, their errors and a header. -/
def dictOf {H : Type} (n m : ℕ) (V I L eV eI eL : ℕ → ℕ → ℝ) (h h' : H) : MapDict H := fun k =>
  if k = "centroid" then some (fullMap n m V, h)
  else if k = "moment0" then some (fullMap n m I, h')
  else if k = "linewidth" then some (fullMap n m L, h')
  else if k = "centroid_error" then some (fullMap n m eV, h')
  else if k = "moment0_error" then some (fullMap n m eI, h')
  else if k = "linewidth_error" then some (fullMap n m eL, h')
  else none

end Spec
open Spec

private theorem amp_mul (n m : ℕ) (c : ℝ) (f : ℕ → ℕ → ℝ) (k l : ℤ) :
    amp n m (fun i j => c * f i j) k l = |c| * amp n m f k l := by
  unfold amp
  have : (fun i j => ((c * f i j : ℝ) : ℂ)) = fun i j => (c : ℂ) * (f i j : ℂ) := by funext i j; push_cast; rfl
  rw [this, dft2_const_mul, norm_mul]
  simp

private theorem mapMean_mul (n m : ℕ) (c : ℝ) (f : ℕ → ℕ → ℝ) :
    mapMean n m (fun i j => c * f i j) = c * mapMean n m f := by
  unfold mapMean
  simp_rw [← mul_sum]
  ring

/-- The spectrum after the velocities (centroid and line width) are multiplied by `c` and the intensities
by `b`: the factor `c` remains inside the bracket. -/
theorem C104_units (n m : ℕ) (hn : 0 < n) (hm : 0 < m) (V I L : ℕ → ℕ → ℝ) (b c : ℝ) :
    ∃ ps, mvcPspec (givenMaps n m (fun i j => c * V i j) (fun i j => b * I i j) (fun i j => c * L i j)) none = .ok ps ∧
      IsCentred ps n m (fun k l => b ^ 2 * c ^ 2 * (amp n m (fun i j => V i j * I i j) k l -
        |c| * mapMean n m (fun i j => L i j ^ 2 + V i j ^ 2) * amp n m I k l) ^ 2) := by
  obtain ⟨ps, h, hc⟩ := C45_spectrum_partial n m hn hm (fun i j => c * V i j) (fun i j => b * I i j)
    (fun i j => c * L i j)
  refine ⟨ps, h, hc.1, hc.2.1, ?_⟩
  intro i hi j hj
  rw [hc.2.2 i hi j hj]
  congr 1
  have e1 : (fun i j => c * V i j * (b * I i j)) = fun i j => (c * b) * (V i j * I i j) := by funext i j; ring
  have e2 : (fun i j => (c * L i j) ^ 2 + (c * V i j) ^ 2) = fun i j => c ^ 2 * (L i j ^ 2 + V i j ^ 2) := by
    funext i j; ring
  simp only
  rw [e1, e2, amp_mul, amp_mul, mapMean_mul, abs_mul]
  generalize amp n m _ _ _ = A
  generalize amp n m _ _ _ = B
  generalize mapMean n m _ = T
  rw [← sq_abs c, ← sq_abs b]
  ring

private theorem get_of {ps : Arr2 (Option ℝ)} {n m : ℕ} {g : ℤ → ℤ → ℝ} (h : IsCentred ps n m g) {i j : ℕ}
    (hi : i < n) (hj : j < m) :
    ps.get i j = some (g ((i : ℤ) - (n / 2 : ℕ)) ((j : ℤ) - (m / 2 : ℕ))) := h.2.2 i hi j hj

/-- The intensity unit gives a factor: the shape of the spectrum, and so its slope, is the same. -/
theorem C104_intensity_unit (n m : ℕ) (hn : 0 < n) (hm : 0 < m) (V I L : ℕ → ℕ → ℝ) (b : ℝ) (hb : b ≠ 0) :
    ∃ ps ps', mvcPspec (givenMaps n m V I L) none = .ok ps ∧
      mvcPspec (givenMaps n m V (fun i j => b * I i j) L) none = .ok ps' ∧ SameUpToFactor ps ps' := by
  obtain ⟨ps, h, hc⟩ := C104_units n m hn hm V I L 1 1
  obtain ⟨ps', h', hc'⟩ := C104_units n m hn hm V I L b 1
  simp only [one_mul] at h h'
  refine ⟨ps, ps', h, h', hc.1.trans hc'.1.symm, hc.2.1.trans hc'.2.1.symm, b ^ 2, pow_ne_zero 2 hb, ?_⟩
  intro i hi j hj
  rw [get_of hc (hc.1 ▸ hi) (hc.2.1 ▸ hj), get_of hc' (hc.1 ▸ hi) (hc.2.1 ▸ hj)]
  simp

/-- At the frequencies where the intensity has no power the velocity unit gives the factor `c²`.  Missing for
the full property: at the other frequencies it does not (`C104_unit_violated`). -/
theorem C104_velocity_unit_partial (n m : ℕ) (hn : 0 < n) (hm : 0 < m) (V I L : ℕ → ℕ → ℝ) (c : ℝ) :
    ∃ ps ps', mvcPspec (givenMaps n m V I L) none = .ok ps ∧
      mvcPspec (givenMaps n m (fun i j => c * V i j) I (fun i j => c * L i j)) none = .ok ps' ∧
      ∀ i < n, ∀ j < m, amp n m I ((i : ℤ) - (n / 2 : ℕ)) ((j : ℤ) - (m / 2 : ℕ)) = 0 →
        ps'.get i j = (ps.get i j).map (c ^ 2 * ·) := by
  obtain ⟨ps, h, hc⟩ := C104_units n m hn hm V I L 1 1
  obtain ⟨ps', h', hc'⟩ := C104_units n m hn hm V I L 1 c
  simp only [one_mul] at h h'
  refine ⟨ps, ps', h, h', ?_⟩
  intro i hi j hj h0
  rw [get_of hc hi hj, get_of hc' hi hj]
  simp only [h0, mul_zero, sub_zero, Option.map_some]
  congr 1
  ring

private theorem om_two_neg_one : om 2 (-1) = -1 := by
  unfold om
  have : -(2 * (Real.pi : ℂ) * Complex.I * ((-1 : ℤ) : ℂ) / ((2 : ℕ) : ℂ)) = Real.pi * Complex.I := by
    push_cast; ring
  rw [this, Complex.exp_pi_mul_I]

/-- Amplitudes of a map of two pixels. -/
private theorem amp12 (f : ℕ → ℕ → ℝ) :
    amp 1 2 f 0 0 = |f 0 0 + f 0 1| ∧ amp 1 2 f 0 (-1) = |f 0 0 - f 0 1| := by
  constructor
  · unfold amp dft2
    simp only [mul_zero, om_zero, mul_one, sum_range_succ, sum_range_zero, zero_add]
    rw [← Complex.ofReal_add, Complex.norm_real, Real.norm_eq_abs]
  · unfold amp dft2
    simp only [mul_zero, om_zero, one_mul, mul_one, sum_range_succ, sum_range_zero, zero_add, Nat.cast_zero,
      zero_mul, Nat.cast_one, om_two_neg_one]
    rw [mul_neg, mul_one, ← Complex.ofReal_neg, ← Complex.ofReal_add, Complex.norm_real, Real.norm_eq_abs, sub_eq_add_neg]

/-- The two values of the spectrum of two pixels. -/
private theorem two_values {ps : Arr2 (Option ℝ)} {g : ℤ → ℤ → ℝ} (h : IsCentred ps 1 2 g) :
    ps.get 0 0 = some (g 0 (-1)) ∧ ps.get 0 1 = some (g 0 0) := by
  constructor
  · have := h.2.2 0 (by norm_num) 0 (by norm_num)
    simpa using this
  · have := h.2.2 0 (by norm_num) 1 (by norm_num)
    simpa using this

/-- Two pixels of intensity 3 and 1, velocity 1 and 0. -/
private theorem unit_values (c : ℝ) (hc0 : 0 ≤ c) :
    ∃ ps, mvcPspec (givenMaps 1 2 (fun _ j => c * if j = 0 then 1 else 0) (fun _ j => if j = 0 then 3 else 1)
        (fun _ _ => c * 0)) none = .ok ps ∧ ps.n = 1 ∧ ps.m = 2 ∧
      ps.get 0 0 = some (c ^ 2 * (3 - c) ^ 2) ∧ ps.get 0 1 = some (c ^ 2 * (3 - 2 * c) ^ 2) := by
  obtain ⟨ps, h, hc⟩ := C104_units 1 2 (by norm_num) (by norm_num) (fun _ j => if j = 0 then 1 else 0)
    (fun _ j => if j = 0 then 3 else 1) (fun _ _ => 0) 1 c
  simp only [one_mul] at h
  refine ⟨ps, h, hc.1, hc.2.1, ?_, ?_⟩
  · rw [(two_values hc).1, (amp12 _).2, (amp12 _).2]
    unfold mapMean
    norm_num [sum_range_succ, abs_of_nonneg hc0]
    left; ring
  · rw [(two_values hc).2, (amp12 _).1, (amp12 _).1]
    unfold mapMean
    norm_num [sum_range_succ, abs_of_nonneg hc0]
    left; ring

/-- VIOLATION: expressing the same velocities in m/s instead of km/s changes the shape of the spectrum.  Two
pixels: in km/s there is four times more power at the small scale than at the large one, in m/s there is four
times less. -/
theorem C104_unit_violated : ∃ V I L : ℕ → ℕ → ℝ, ∃ ps ps' : Arr2 (Option ℝ), ∃ a b a' b' : ℝ,
    mvcPspec (givenMaps 1 2 V I L) none = .ok ps ∧
    mvcPspec (givenMaps 1 2 (fun i j => 1000 * V i j) I (fun i j => 1000 * L i j)) none = .ok ps' ∧
    ¬ SameUpToFactor ps ps' ∧
    ps.get 0 0 = some a ∧ ps.get 0 1 = some b ∧ ps'.get 0 0 = some a' ∧ ps'.get 0 1 = some b' ∧
    a = 4 * b ∧ 4 * a' < b' := by
  obtain ⟨ps, h, hn, hm, h0, h1⟩ := unit_values 1 (by norm_num)
  obtain ⟨ps', h', hn', hm', h0', h1'⟩ := unit_values 1000 (by norm_num)
  simp only [one_mul] at h
  refine ⟨_, _, fun _ _ => 0, ps, ps', _, _, _, _, h, h', ?_, h0, h1, h0', h1', by norm_num, by norm_num⟩
  rintro ⟨-, -, f, hf, hall⟩
  have e0 := hall 0 (by omega) 0 (by omega)
  have e1 := hall 0 (by omega) 1 (by omega)
  rw [h0, h0', Option.map_some, Option.some_inj] at e0
  rw [h1, h1', Option.map_some, Option.some_inj] at e1
  norm_num at e0 e1
  linarith

/-- Displacing all three maps periodically changes nothing. -/
theorem C104_displaced (n m : ℕ) (hn : 0 < n) (hm : 0 < m) (V I L : ℕ → ℕ → ℝ) (s t : ℤ) :
    ∃ ps ps', mvcPspec (givenMaps n m V I L) none = .ok ps ∧
      mvcPspec (givenMaps n m (displaced n m s t V) (displaced n m s t I) (displaced n m s t L)) none = .ok ps' ∧
      ps'.n = n ∧ ps'.m = m ∧ ps.n = n ∧ ps.m = m ∧ ∀ i < n, ∀ j < m, ps'.get i j = ps.get i j := by
  have hA : ∀ (f : ℕ → ℕ → ℝ) (k l : ℤ), amp n m (displaced n m s t f) k l = amp n m f k l := by
    intro f k l
    have := power2_shift s t ⟨n, m, f⟩ hn hm k l
    unfold power2 shift2 at this
    unfold amp displaced
    exact (sq_eq_sq₀ (norm_nonneg _) (norm_nonneg _)).1 this
  have hM : ∀ f : ℕ → ℕ → ℝ, mapMean n m (displaced n m s t f) = mapMean n m f := by
    intro f
    unfold mapMean displaced
    congr 1
    have h1 : ∀ i : ℕ, ∑ j ∈ range m, f i (rollIx m t j) = ∑ j ∈ range m, f i j :=
      fun i => sum_rollIx hm t (fun j => f i j)
    have h2 := sum_rollIx hn s (fun i => ∑ j ∈ range m, f i (rollIx m t j))
    simp_rw [h1] at h2
    rw [← h2]
    apply sum_congr rfl; intro i _
    rw [← h1]; rfl
  obtain ⟨ps, h, hc⟩ := C45_spectrum_partial n m hn hm V I L
  obtain ⟨ps', h', hc'⟩ := C45_spectrum_partial n m hn hm (displaced n m s t V) (displaced n m s t I)
    (displaced n m s t L)
  refine ⟨ps, ps', h, h', hc'.1, hc'.2.1, hc.1, hc.2.1, ?_⟩
  intro i hi j hj
  rw [get_of hc hi hj, get_of hc' hi hj]
  have e1 : (fun i j => displaced n m s t V i j * displaced n m s t I i j) =
      displaced n m s t (fun i j => V i j * I i j) := rfl
  have e2 : (fun i j => displaced n m s t L i j ^ 2 + displaced n m s t V i j ^ 2) =
      displaced n m s t (fun i j => L i j ^ 2 + V i j ^ 2) := rfl
  rw [e1, e2, hA, hA, hM]

private theorem weigh_full (n m : ℕ) (f e : ℕ → ℕ → ℝ) (he : ∀ i j, e i j ≠ 0) :
    weighMap (fullMap n m f) (fullMap n m e) = .ok (fullMap n m (fun i j => f i j / e i j ^ 2)) := by
  unfold weighMap
  rw [if_pos ⟨rfl, rfl⟩]
  congr 1
  unfold fullMap
  congr 1
  funext i j
  show weighPixel (some (f i j)) (some (e i j)) = _
  unfold weighPixel
  have : e i j ^ 2 ≠ 0 := pow_ne_zero 2 (he i j)
  simp [mulO, divO, sqO, this, div_eq_mul_inv]

/-- Complete maps with errors that are not zero: with `weight_by_error` each map is divided by the square of
its own errors, without it the maps are used as they are; the header is that of the centroid.  Missing for the
full property: this is a rescaling of the maps, not a weighting of the pixels
(`C104_equal_errors_violated`). -/
theorem C104_weights_partial {H : Type} (n m : ℕ) (V I L eV eI eL : ℕ → ℕ → ℝ) (h h' : H)
    (hV : ∀ i j, eV i j ≠ 0) (hI : ∀ i j, eI i j ≠ 0) (hL : ∀ i j, eL i j ≠ 0) :
    mvcDataset true (dictOf n m V I L eV eI eL h h') =
      .ok (givenMaps n m (fun i j => V i j / eV i j ^ 2) (fun i j => I i j / eI i j ^ 2)
        (fun i j => L i j / eL i j ^ 2), h) ∧
    mvcDataset false (dictOf n m V I L eV eI eL h h') = .ok (givenMaps n m V I L, h) := by
  constructor
  · unfold mvcDataset mapOf MapDict.item
    simp [dictOf, bind, Except.bind, pure, Except.pure, weigh_full n m _ _ hV, weigh_full n m _ _ hI,
      weigh_full n m _ _ hL, (C45_init (fullMap n m V) (fullMap n m I) (fullMap n m L)).2, givenMaps]
  · unfold mvcDataset mapOf MapDict.item
    simp [dictOf, bind, Except.bind, pure, Except.pure,
      (C45_init (fullMap n m V) (fullMap n m I) (fullMap n m L)).2, givenMaps]

/-- Errors of one everywhere change nothing. -/
theorem C104_unit_errors {H : Type} (n m : ℕ) (V I L : ℕ → ℕ → ℝ) (h h' : H) :
    mvcDataset true (dictOf n m V I L (fun _ _ => 1) (fun _ _ => 1) (fun _ _ => 1) h h') =
      mvcDataset false (dictOf n m V I L (fun _ _ => 1) (fun _ _ => 1) (fun _ _ => 1) h h') := by
  rw [(C104_weights_partial n m V I L _ _ _ h h' (by simp) (by simp) (by simp)).1,
    (C104_weights_partial n m V I L _ _ _ h h' (by simp) (by simp) (by simp)).2]
  simp

/-- Each dataset is weighted by its own errors only: exchanging the datasets exchanges the results. -/
theorem C104_separate {H : Type} (w : Bool) (d1 d2 : MapDict H) (a b : MvcState × H) :
    mvcDatasets w d1 d2 = .ok (a, b) ↔ mvcDataset w d1 = .ok a ∧ mvcDataset w d2 = .ok b := by
  unfold mvcDatasets
  cases mvcDataset w d1 <;> cases mvcDataset w d2 <;> simp [bind, Except.bind, pure, Except.pure]

private theorem mapOf_keys {H : Type} {w : Bool} {d : MapDict H} {k e : String} {y : Arr2 (Option ℝ)}
    (h : mapOf w d k e = .ok y) : d k ≠ none ∧ (w = true → d e ≠ none) := by
  unfold mapOf MapDict.item at h
  cases hk : d k with
  | none => simp [hk, bind, Except.bind] at h
  | some x =>
    refine ⟨by simp, ?_⟩
    rintro rfl he
    simp [hk, he, bind, Except.bind] at h

/-- A property missing from the dictionary raises `KeyError`, and so does a missing error array exactly when
the errors are wanted. -/
theorem C104_keys {H : Type} (w : Bool) (d : MapDict H) (x : MvcState × H) (hx : mvcDataset w d = .ok x) :
    (∀ k ∈ ["centroid", "moment0", "linewidth"], d k ≠ none) ∧
    (w = true → ∀ k ∈ ["centroid_error", "moment0_error", "linewidth_error"], d k ≠ none) := by
  unfold mvcDataset at hx
  simp only [bind, Except.bind] at hx
  split at hx
  · cases hx
  rename_i c hc
  split at hx
  · cases hx
  rename_i m0 hm0
  split at hx
  · cases hx
  rename_i lw hlw
  have h1 := mapOf_keys hc
  have h2 := mapOf_keys hm0
  have h3 := mapOf_keys hlw
  constructor
  · intro k hk
    simp only [List.mem_cons, List.not_mem_nil, or_false] at hk
    rcases hk with rfl | rfl | rfl
    exacts [h1.1, h2.1, h3.1]
  · intro hw k hk
    simp only [List.mem_cons, List.not_mem_nil, or_false] at hk
    rcases hk with rfl | rfl | rfl
    exacts [h1.2 hw, h2.2 hw, h3.2 hw]

/-- A complete dictionary without one of the error arrays: `KeyError` with weights, no complaint without. -/
theorem C104_missing_error {H : Type} (n m : ℕ) (V I L eV eI eL : ℕ → ℕ → ℝ) (h h' : H)
    (hV : ∀ i j, eV i j ≠ 0) (hI : ∀ i j, eI i j ≠ 0) (key : String)
    (hk : key ∈ ["centroid_error", "moment0_error", "linewidth_error"]) :
    let d : MapDict H := fun k => if k = key then none else dictOf n m V I L eV eI eL h h' k
    mvcDataset true d = .error .keyError ∧ mvcDataset false d = .ok (givenMaps n m V I L, h) := by
  intro d
  simp only [List.mem_cons, List.not_mem_nil, or_false] at hk
  rcases hk with rfl | rfl | rfl <;>
  · constructor <;>
    · unfold mvcDataset mapOf MapDict.item
      simp [d, dictOf, bind, Except.bind, pure, Except.pure, weigh_full n m _ _ hV, weigh_full n m _ _ hI,
        (C45_init (fullMap n m V) (fullMap n m I) (fullMap n m L)).2, givenMaps]

/-- Equal errors `e` in all maps: the spectrum that `weight_by_error` gives. -/
theorem C104_equal_errors {H : Type} (n m : ℕ) (hn : 0 < n) (hm : 0 < m) (V I L : ℕ → ℕ → ℝ) (h h' : H) (e : ℝ)
    (he : e ≠ 0) :
    ∃ s ps, mvcDataset true (dictOf n m V I L (fun _ _ => e) (fun _ _ => e) (fun _ _ => e) h h') = .ok (s, h) ∧
      mvcPspec s none = .ok ps ∧
      IsCentred ps n m (fun k l => (1 / e ^ 2) ^ 2 * (1 / e ^ 2) ^ 2 * (amp n m (fun i j => V i j * I i j) k l -
        |1 / e ^ 2| * mapMean n m (fun i j => L i j ^ 2 + V i j ^ 2) * amp n m I k l) ^ 2) := by
  obtain ⟨ps, hp, hc⟩ := C104_units n m hn hm V I L (1 / e ^ 2) (1 / e ^ 2)
  refine ⟨_, ps, (C104_weights_partial n m V I L _ _ _ h h' (by simp [he]) (by simp [he]) (by simp [he])).1, ?_, hc⟩
  rw [← hp]
  congr 2 <;> · funext i j; ring

/-- VIOLATION: errors that are the same everywhere should weight every pixel alike and leave the shape of the
spectrum as it is; with errors of 2 everywhere they do not. -/
theorem C104_equal_errors_violated : ∃ V I L : ℕ → ℕ → ℝ, ∃ s s' : MvcState, ∃ ps ps' : Arr2 (Option ℝ),
    let d := dictOf 1 2 V I L (fun _ _ => 2) (fun _ _ => 2) (fun _ _ => 2) () ()
    mvcDataset false d = .ok (s, ()) ∧ mvcDataset true d = .ok (s', ()) ∧
    mvcPspec s none = .ok ps ∧ mvcPspec s' none = .ok ps' ∧ ¬ SameUpToFactor ps ps' := by
  obtain ⟨ps, h, hn, hm, h0, h1⟩ := unit_values 1 (by norm_num)
  simp only [one_mul] at h
  obtain ⟨s', ps', hs', h', hc'⟩ := C104_equal_errors (H := Unit) 1 2 (by norm_num) (by norm_num)
    (fun _ j => if j = 0 then 1 else 0) (fun _ j => if j = 0 then 3 else 1) (fun _ _ => 0) () () 2 (by norm_num)
  refine ⟨_, _, _, _, s', ps, ps', ?_, hs', h, h', ?_⟩
  · exact (C104_weights_partial 1 2 _ _ _ _ _ _ () () (by simp) (by simp) (by simp)).2
  rintro ⟨-, -, f, hf, hall⟩
  have e0 := hall 0 (by omega) 0 (by omega)
  have e1 := hall 0 (by omega) 1 (by omega)
  rw [h0, (two_values hc').1, (amp12 _).2, (amp12 _).2, Option.map_some, Option.some_inj] at e0
  rw [h1, (two_values hc').2, (amp12 _).1, (amp12 _).1, Option.map_some, Option.some_inj] at e1
  unfold mapMean at e0 e1
  norm_num [sum_range_succ] at e0 e1
  linarith

/-- Non-vacuity: a dictionary of 2×3 maps with different errors per map and pixel. -/
example : ∃ s, mvcDataset true (dictOf 2 3 (fun i j => (i : ℝ) - j) (fun _ _ => 8) (fun _ _ => 1)
    (fun i j => (i : ℝ) + j + 1) (fun _ _ => 2) (fun _ _ => 1) "hdr" "other") = .ok (s, "hdr") ∧
    s.moment0.get 1 2 = some 2 ∧ s.centroid.get 1 0 = some (1 / 4) := by
  refine ⟨_, (C104_weights_partial 2 3 _ _ _ _ _ _ "hdr" "other" ?_ (by simp) (by simp)).1, ?_, ?_⟩
  · intro i j; positivity
  · norm_num [givenMaps, fullMap]
  · norm_num [givenMaps, fullMap]

end TS
