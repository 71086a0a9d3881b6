import Verif.Model.DeltaVariance
import Mathlib.Tactic.Linarith
import Mathlib.Tactic.Positivity
import Mathlib.Tactic.IntervalCases

/-! C39 — validation of the lags of DeltaVariance, the scales of Wavelet and the lags of Tsallis. -/

namespace TS

namespace Spec

/-- All values, in pixels, are at least one pixel and below the whole number following half the side.
(For an even side, half the side is itself a whole number `h`, and values up to `h + 1` are let through:
the code compares the whole part only.) -/
def InLagRange (side : ℕ) (pix : List ℝ) : Prop := ∀ v ∈ pix, 1 ≤ v ∧ v < ((side / 2 : ℕ) : ℝ) + 1

/-- The range the documentation states: at least one pixel, at most half the side. -/
def Resolvable (side : ℕ) (pix : List ℝ) : Prop := ∀ v ∈ pix, 1 ≤ v ∧ v ≤ (side : ℝ) / 2

end Spec

private theorem floor_test (side : ℕ) (v : ℝ) :
    (1e-10 < (⌊v⌋ : ℝ) - (side : ℝ) / 2) ↔ ((side / 2 : ℕ) : ℝ) + 1 ≤ v := by
  have hr : (((side / 2 : ℕ) : ℤ) + 1 : ℤ) ≤ ⌊v⌋ ↔ ((side / 2 : ℕ) : ℝ) + 1 ≤ v := by
    rw [Int.le_floor]; push_cast; rfl
  rw [← hr]
  have h2 : (side : ℝ) = 2 * ((side / 2 : ℕ) : ℝ) + ((side % 2 : ℕ) : ℝ) := by
    exact_mod_cast (Nat.div_add_mod side 2).symm
  have hm : side % 2 < 2 := Nat.mod_lt _ (by norm_num)
  constructor
  · intro h
    by_contra hc
    push Not at hc
    have : ⌊v⌋ ≤ ((side / 2 : ℕ) : ℤ) := by omega
    have h' : (⌊v⌋ : ℝ) ≤ ((side / 2 : ℕ) : ℝ) := by
      have t := (Int.cast_le (R := ℝ)).2 this
      rwa [Int.cast_natCast] at t
    have : (0 : ℝ) ≤ ((side % 2 : ℕ) : ℝ) := by positivity
    norm_num at h
    linarith
  · intro h
    have h' : (((side / 2 : ℕ) : ℝ) + 1) ≤ (⌊v⌋ : ℝ) := by
      have t := (Int.cast_le (R := ℝ)).2 h
      rwa [Int.cast_add, Int.cast_natCast, Int.cast_one] at t
    have : ((side % 2 : ℕ) : ℝ) ≤ 1 := by exact_mod_cast (by omega : side % 2 ≤ 1)
    norm_num
    linarith

private theorem check_quantity (side : ℕ) (v : List ℝ) (f : ℝ) :
    (checkLags side (.quantity v f) = .ok () ↔ Spec.InLagRange side (v.map (· * f))) ∧
    (¬ Spec.InLagRange side (v.map (· * f)) → checkLags side (.quantity v f) = .error .valueError) := by
  unfold checkLags LagInput.toPixel Spec.InLagRange
  simp only [bind, Except.bind, pure, Except.pure]
  set pix := v.map (· * f)
  split_ifs with h1 h2
  · rw [List.any_eq_true] at h1
    obtain ⟨x, hx, hlt⟩ := h1
    simp only [decide_eq_true_eq] at hlt
    refine ⟨⟨fun h => (by cases h), fun h => ?_⟩, fun _ => rfl⟩
    exact absurd (h x hx).1 (not_le.2 hlt)
  · rw [List.any_eq_true] at h2
    obtain ⟨x, hx, hlt⟩ := h2
    simp only [decide_eq_true_eq] at hlt
    rw [floor_test] at hlt
    refine ⟨⟨fun h => (by cases h), fun h => ?_⟩, fun _ => rfl⟩
    exact absurd (h x hx).2 (not_lt.2 hlt)
  · have hall : ∀ x ∈ pix, 1 ≤ x ∧ x < ((side / 2 : ℕ) : ℝ) + 1 := by
      intro x hx
      constructor
      · by_contra hc
        exact h1 (List.any_eq_true.2 ⟨x, hx, by simpa using hc⟩)
      · by_contra hc
        exact h2 (List.any_eq_true.2 ⟨x, hx, by
          simp only [decide_eq_true_eq]; rw [floor_test]; exact not_lt.1 hc⟩)
    exact ⟨⟨fun _ => hall, fun _ => rfl⟩, fun h => absurd hall h⟩

/-- Exactly which lags are accepted: those with a convertible unit, all at least one pixel and below
`side // 2 + 1` pixels.  Everything else raises: TypeError without a unit, a unit error for a foreign one,
ValueError out of range.  Missing for the full property: the limit should be half the side
(`C39_above_half_accepted`). -/
theorem C39_accepts_partial (side : ℕ) (l : LagInput) :
    (checkLags side l = .ok () ↔ ∃ v f, l = .quantity v f ∧ Spec.InLagRange side (v.map (· * f))) ∧
    (∀ v, l = .plain v → checkLags side l = .error .typeError) ∧
    (l = .foreign → checkLags side l = .error .unitConversionError) ∧
    (∀ v f, l = .quantity v f → ¬ Spec.InLagRange side (v.map (· * f)) →
      checkLags side l = .error .valueError) := by
  refine ⟨?_, by rintro v rfl; rfl, by rintro rfl; rfl, by rintro v f rfl h; exact (check_quantity side v f).2 h⟩
  cases l with
  | plain v => exact ⟨fun h => (by cases h), by rintro ⟨_, _, h, _⟩; cases h⟩
  | foreign => exact ⟨fun h => (by cases h), by rintro ⟨_, _, h, _⟩; cases h⟩
  | quantity v f =>
    rw [(check_quantity side v f).1]
    constructor
    · intro h; exact ⟨v, f, rfl, h⟩
    · rintro ⟨v', f', h, hr⟩
      cases h; exact hr

/-- An assignment either succeeds and stores the new values, or raises and leaves the old ones. -/
theorem C39_atomic (side : ℕ) (old new : LagInput) :
    ((setLags side old new).1 = .ok () ∧ (setLags side old new).2 = new) ∨
    (∃ e, (setLags side old new).1 = .error e ∧ (setLags side old new).2 = old) := by
  unfold setLags
  cases checkLags side new with
  | ok u => left; exact ⟨rfl, rfl⟩
  | error e => right; exact ⟨e, rfl, rfl⟩

/-- Every resolvable lag array is accepted. -/
theorem C39_resolvable (side : ℕ) (v : List ℝ) (f : ℝ) (h : Spec.Resolvable side (v.map (· * f))) :
    checkLags side (.quantity v f) = .ok () := by
  rw [(check_quantity side v f).1]
  intro x hx
  refine ⟨(h x hx).1, ?_⟩
  have h2 : (side : ℝ) = 2 * ((side / 2 : ℕ) : ℝ) + ((side % 2 : ℕ) : ℝ) := by
    exact_mod_cast (Nat.div_add_mod side 2).symm
  have : ((side % 2 : ℕ) : ℝ) ≤ 1 := by exact_mod_cast (by omega : side % 2 ≤ 1)
  have := (h x hx).2
  linarith

/-- The upper limit is not enforced as stated: on every map of even side ≥ 2 a lag 0.9 pixel above half
the side is accepted. -/
theorem C39_above_half_accepted (h : ℕ) (hh : 1 ≤ h) :
    checkLags (2 * h) (.quantity [(h : ℝ) + 9 / 10] 1) = .ok () ∧
    ¬ Spec.Resolvable (2 * h) [(h : ℝ) + 9 / 10] := by
  constructor
  · rw [(check_quantity _ _ _).1]
    intro x hx
    simp only [List.map_cons, List.map_nil, List.mem_singleton, mul_one] at hx
    subst hx
    rw [Nat.mul_div_cancel_left h (by norm_num)]
    have : (1 : ℝ) ≤ h := by exact_mod_cast hh
    constructor <;> linarith
  · intro hr
    have := (hr _ (List.mem_singleton.2 rfl)).2
    push_cast at this
    linarith

private theorem logspace_mem (a b : ℝ) (ha : 0 < a) (hb : 0 < b) (num : ℕ) (i : ℕ) (hi : i < num) :
    min a b ≤ (logspace (log10 a) (log10 b) num).get i ∧ (logspace (log10 a) (log10 b) num).get i ≤ max a b := by
  have key : ∀ t : ℝ, 0 ≤ t → t ≤ 1 →
      min a b ≤ (10 : ℝ) ^ (log10 a + t * (log10 b - log10 a)) ∧
      (10 : ℝ) ^ (log10 a + t * (log10 b - log10 a)) ≤ max a b := by
    intro t h0 h1
    have ea : (10 : ℝ) ^ log10 a = a := Real.rpow_logb (by norm_num) (by norm_num) ha
    have eb : (10 : ℝ) ^ log10 b = b := Real.rpow_logb (by norm_num) (by norm_num) hb
    rcases le_total (log10 a) (log10 b) with h | h
    · have hab : a ≤ b := by
        rw [← ea, ← eb]; exact Real.rpow_le_rpow_of_exponent_le (by norm_num) h
      rw [min_eq_left hab, max_eq_right hab]
      constructor
      · conv_lhs => rw [← ea]
        exact Real.rpow_le_rpow_of_exponent_le (by norm_num) (by nlinarith)
      · conv_rhs => rw [← eb]
        exact Real.rpow_le_rpow_of_exponent_le (by norm_num) (by nlinarith)
    · have hab : b ≤ a := by
        rw [← ea, ← eb]; exact Real.rpow_le_rpow_of_exponent_le (by norm_num) h
      rw [min_eq_right hab, max_eq_left hab]
      constructor
      · conv_lhs => rw [← eb]
        exact Real.rpow_le_rpow_of_exponent_le (by norm_num) (by nlinarith)
      · conv_rhs => rw [← ea]
        exact Real.rpow_le_rpow_of_exponent_le (by norm_num) (by nlinarith)
  have : (logspace (log10 a) (log10 b) num).get i =
      (10 : ℝ) ^ (log10 a + ((i : ℝ) / ((num : ℝ) - 1)) * (log10 b - log10 a)) := by
    simp only [logspace, linspace, Arr1.map]
    congr 1
    ring
  rw [this]
  have hn : (i : ℝ) ≤ (num : ℝ) - 1 := by
    have : (i : ℝ) + 1 ≤ num := by exact_mod_cast hi
    linarith
  have hi0 : (0 : ℝ) ≤ i := by positivity
  apply key
  · exact div_nonneg hi0 (by linarith)
  · rcases eq_or_lt_of_le (hi0.trans hn) with h | h
    · rw [← h, div_zero]; norm_num
    · rw [div_le_one h]; exact hn

private theorem logspace_first (a b : ℝ) (ha : 0 < a) (num : ℕ) :
    (logspace (log10 a) (log10 b) num).get 0 = a := by
  simp only [logspace, linspace, Arr1.map, Nat.cast_zero, zero_mul, add_zero]
  exact Real.rpow_logb (by norm_num) (by norm_num) ha

/-- DeltaVariance's default lags are accepted when the smallest side is at least 6 pixels, and rejected
(the constructor raises) on smaller maps. -/
theorem C39_deltavar_default (side nlags : ℕ) (hn : 1 ≤ nlags) :
    (6 ≤ side → ∃ l, deltaVarInitLags side nlags none = .ok l) ∧
    (side < 6 → deltaVarInitLags side nlags none = .error .valueError) := by
  constructor
  · intro hs
    have h3 : (3 : ℝ) ≤ (side : ℝ) / 2 := by
      have : (6 : ℝ) ≤ side := by exact_mod_cast hs
      linarith
    unfold deltaVarInitLags
    simp only
    rw [C39_resolvable]
    · exact ⟨_, rfl⟩
    · intro v hv
      simp only [mul_one, List.map_id', List.mem_map, List.mem_range] at hv
      obtain ⟨i, hi, rfl⟩ := hv
      have := logspace_mem 3 ((side : ℝ) / 2) (by norm_num) (by linarith) nlags i hi
      rw [min_eq_left h3, max_eq_right h3] at this
      exact ⟨by linarith [this.1], this.2⟩
  · intro hs
    unfold deltaVarInitLags
    simp only
    rw [(check_quantity _ _ _).2]
    · rfl
    · intro h
      have := (h 3 (by
        simp only [mul_one, List.map_id', List.mem_map, List.mem_range]
        exact ⟨0, hn, logspace_first 3 _ (by norm_num) nlags⟩)).2
      have h2 : ((side / 2 : ℕ) : ℝ) ≤ 2 := by exact_mod_cast (by omega : side / 2 ≤ 2)
      linarith

/-- Wavelet's default scales are accepted exactly for maps at least 2 pixels wide. -/
theorem C39_wavelet_default (side num : ℕ) (hs : 1 ≤ side) (hn : 1 ≤ num) :
    checkLags side (waveletDefault side num) = .ok () ↔ 2 ≤ side := by
  unfold waveletDefault
  simp only
  rw [(check_quantity _ _ _).1]
  constructor
  · intro h
    by_contra hc
    have h1 : side = 1 := by omega
    subst h1
    have := (h 1.667 (by
        simp only [mul_one, List.map_id', List.mem_map, List.mem_range]
        exact ⟨0, hn, logspace_first 1.667 _ (by norm_num) num⟩)).2
    norm_num at this
  · intro h2 v hv
    simp only [mul_one, List.map_id', List.mem_map, List.mem_range] at hv
    obtain ⟨i, hi, rfl⟩ := hv
    have hs' : (0 : ℝ) < (side : ℝ) / 2 := by
      have : (1 : ℝ) ≤ side := by exact_mod_cast hs
      linarith
    have hs2 : (1 : ℝ) ≤ (side : ℝ) / 2 := by
      have : (2 : ℝ) ≤ side := by exact_mod_cast h2
      linarith
    have := logspace_mem 1.667 ((side : ℝ) / 2) (by norm_num) hs' num i hi
    refine ⟨le_trans (le_min (by norm_num) hs2) this.1, lt_of_le_of_lt this.2 (max_lt ?_ ?_)⟩
    · have : (1 : ℝ) ≤ ((side / 2 : ℕ) : ℝ) := by exact_mod_cast (by omega : 1 ≤ side / 2)
      norm_num; linarith
    · have e : (side : ℝ) = 2 * ((side / 2 : ℕ) : ℝ) + ((side % 2 : ℕ) : ℝ) := by
        exact_mod_cast (Nat.div_add_mod side 2).symm
      have : ((side % 2 : ℕ) : ℝ) ≤ 1 := by exact_mod_cast (by omega : side % 2 ≤ 1)
      linarith

/-- Tsallis's default lags are accepted for every map. -/
theorem C39_tsallis_default (side : ℕ) (hs : 1 ≤ side) : checkLags side (tsallisDefault side) = .ok () := by
  unfold tsallisDefault
  apply C39_resolvable
  intro v hv
  simp only [mul_one, List.map_id', List.mem_map, List.mem_range] at hv
  obtain ⟨i, hi, rfl⟩ := hv
  refine ⟨one_le_pow₀ (by norm_num), ?_⟩
  have hpos : (0 : ℝ) < (side : ℝ) / 2 := by
    have : (1 : ℝ) ≤ side := by exact_mod_cast hs
    linarith
  have : (i : ℤ) ≤ ⌊Real.logb 2 ((side : ℝ) / 2)⌋ := by omega
  have : (i : ℝ) ≤ Real.logb 2 ((side : ℝ) / 2) := by
    have := Int.le_floor.1 this
    exact_mod_cast this
  rw [Real.le_logb_iff_rpow_le (by norm_num) hpos] at this
  rwa [Real.rpow_natCast] at this

/-- DeltaVariance uses the stored numbers as pixels.  After construction they are pixels, whatever unit
was given… -/
theorem C39_constructor_converts (side nlags : ℕ) (v : List ℝ) (f : ℝ)
    (h : Spec.InLagRange side (v.map (· * f))) :
    ∃ l, deltaVarInitLags side nlags (some (.quantity v f)) = .ok l ∧ l.rawValues = v.map (· * f) := by
  refine ⟨.quantity (v.map (· * f)) 1, ?_, rfl⟩
  unfold deltaVarInitLags
  simp only
  rw [(check_quantity _ _ _).1.2 (by simpa [Function.comp_def] using h)]
  rfl

/-- …but not after assigning `lags` in another unit: 3 lags of 4 pixels given in a unit of two pixels are
accepted and used as lags of 2. -/
theorem C39_setter_not_converted : ∃ (side : ℕ) (old new : LagInput),
    (setLags side old new).1 = .ok () ∧ new.toPixel = .ok [4] ∧ (setLags side old new).2.rawValues = [2] := by
  refine ⟨16, .quantity [3] 1, .quantity [2] 2, ?_, ?_, ?_⟩
  · unfold setLags
    rw [(check_quantity _ _ _).1.2]
    intro x hx
    simp only [List.map_cons, List.map_nil, List.mem_singleton] at hx
    subst hx
    norm_num
  · norm_num [LagInput.toPixel]
  · unfold setLags
    rw [(check_quantity _ _ _).1.2]
    · rfl
    · intro x hx
      simp only [List.map_cons, List.map_nil, List.mem_singleton] at hx
      subst hx
      norm_num

/-- Non-vacuity: lags on a 16-pixel map. -/
example : Spec.Resolvable 16 ([1, 2.5, 8].map (· * (1 : ℝ))) := by
  intro v hv
  simp only [List.map_cons, List.map_nil, mul_one, List.mem_cons, List.not_mem_nil, or_false] at hv
  rcases hv with rfl | rfl | rfl <;> norm_num

end TS
