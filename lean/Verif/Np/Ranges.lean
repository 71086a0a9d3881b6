import Verif.Np.Core
import Mathlib.Analysis.SpecialFunctions.Log.Base
import Mathlib.Analysis.SpecialFunctions.Pow.Real
import Mathlib.Algebra.Order.Round
import Mathlib.Algebra.Order.Floor.Ring

/-! numpy ranges, rounding and histogram-bin look-up (external contracts). -/

namespace TS

/-- `np.linspace(a, b, num)`: `num` equally spaced values from `a` to `b` inclusive
(a single value `a` when `num = 1`). -/
noncomputable def linspace (a b : ℝ) (num : ℕ) : Arr1 ℝ :=
  ⟨num, fun k => a + k * ((b - a) / ((num : ℝ) - 1))⟩

/-- `np.logspace(la, lb, num)`: ten to the power of `linspace`. -/
noncomputable def logspace (la lb : ℝ) (num : ℕ) : Arr1 ℝ :=
  (linspace la lb num).map (fun x => (10 : ℝ) ^ x)

/-- `np.log10`. -/
noncomputable def log10 (x : ℝ) : ℝ := Real.logb 10 x

/-- Python `int(x)`: truncation toward zero. -/
noncomputable def pyInt (x : ℝ) : ℤ := if 0 ≤ x then ⌊x⌋ else ⌈x⌉

/-- `np.round(x)`: nearest integer, halves to even. -/
noncomputable def npRound (x : ℝ) : ℤ :=
  if x - ⌊x⌋ < 1 / 2 then ⌊x⌋
  else if 1 / 2 < x - ⌊x⌋ then ⌊x⌋ + 1
  else if Even ⌊x⌋ then ⌊x⌋ else ⌊x⌋ + 1

/-- `np.digitize(x, edges)` for non-decreasing edges: the number of edges `≤ x`. -/
noncomputable def digitize (edges : Arr1 ℝ) (x : ℝ) : ℕ :=
  ((Finset.range edges.n).filter (fun k => edges.get k ≤ x)).card

/-- Bin (counted from 0) that `scipy.stats.binned_statistic` / `np.histogram` put `x` in:
`digitize`, with values on the last edge moved into the last bin, outliers dropped. -/
noncomputable def binOf (edges : Arr1 ℝ) (x : ℝ) : Option ℕ :=
  let d := digitize edges x
  let d := if x = edges.get (edges.n - 1) then d - 1 else d
  if 1 ≤ d ∧ d ≤ edges.n - 1 then some (d - 1) else none

/-! ### Facts -/

theorem linspace_strictMono {a b : ℝ} {num : ℕ} (hab : a < b) (hnum : 2 ≤ num) {i j : ℕ}
    (hij : i < j) : (linspace a b num).get i < (linspace a b num).get j := by
  simp only [linspace]
  have h1 : (0 : ℝ) < (num : ℝ) - 1 := by
    have : (2 : ℝ) ≤ num := by exact_mod_cast hnum
    linarith
  have h2 : 0 < (b - a) / ((num : ℝ) - 1) := div_pos (by linarith) h1
  have h3 : (i : ℝ) < j := by exact_mod_cast hij
  nlinarith

theorem linspace_first (a b : ℝ) (num : ℕ) : (linspace a b num).get 0 = a := by
  simp [linspace]

theorem linspace_last (a b : ℝ) {num : ℕ} (h : 2 ≤ num) : (linspace a b num).get (num - 1) = b := by
  simp only [linspace]
  have h1 : ((num : ℝ) - 1) ≠ 0 := by
    have : (2 : ℝ) ≤ num := by exact_mod_cast h
    intro h0; linarith
  rw [Nat.cast_sub (by omega)]
  push_cast
  field_simp
  ring

/-- Strictly increasing edges. -/
def StrictEdges (e : Arr1 ℝ) : Prop := ∀ i j, i < j → j < e.n → e.get i < e.get j

theorem linspace_edges {a b : ℝ} {num : ℕ} (hab : a < b) (hnum : 2 ≤ num) :
    StrictEdges (linspace a b num) := fun _ _ hij _ => linspace_strictMono hab hnum hij

theorem logspace_edges {la lb : ℝ} {num : ℕ} (hab : la < lb) (hnum : 2 ≤ num) :
    StrictEdges (logspace la lb num) := by
  intro i j hij _
  simp only [logspace, Arr1.map]
  exact Real.rpow_lt_rpow_of_exponent_lt (by norm_num) (linspace_strictMono hab hnum hij)

theorem digitize_eq {e : Arr1 ℝ} (he : StrictEdges e) {x : ℝ} {k : ℕ} (hk : k + 1 < e.n)
    (h1 : e.get k ≤ x) (h2 : x < e.get (k + 1)) : digitize e x = k + 1 := by
  unfold digitize
  have : (Finset.range e.n).filter (fun i => e.get i ≤ x) = Finset.range (k + 1) := by
    ext i
    simp only [Finset.mem_filter, Finset.mem_range]
    constructor
    · rintro ⟨hi, hx⟩
      by_contra hc
      rcases Nat.lt_or_ge (k + 1) i with h | h
      · have := he (k + 1) i h hi; linarith
      · have : i = k + 1 := by omega
        subst this; linarith
    · intro hi
      refine ⟨by omega, ?_⟩
      rcases Nat.lt_or_ge i k with h | h
      · have := he i k h (by omega); linarith
      · have : i = k := by omega
        subst this; exact h1
  rw [this, Finset.card_range]

theorem digitize_last {e : Arr1 ℝ} (he : StrictEdges e) (hn : 0 < e.n) {x : ℝ}
    (h1 : e.get (e.n - 1) ≤ x) : digitize e x = e.n := by
  unfold digitize
  have : (Finset.range e.n).filter (fun i => e.get i ≤ x) = Finset.range e.n := by
    ext i
    simp only [Finset.mem_filter, Finset.mem_range]
    constructor
    · exact fun h => h.1
    · intro hi
      refine ⟨hi, ?_⟩
      rcases Nat.lt_or_ge i (e.n - 1) with h | h
      · have := he i (e.n - 1) h (by omega); linarith
      · have : i = e.n - 1 := by omega
        subst this; exact h1
  rw [this, Finset.card_range]

theorem digitize_zero {e : Arr1 ℝ} (he : StrictEdges e) {x : ℝ}
    (h1 : x < e.get 0) : digitize e x = 0 := by
  unfold digitize
  rw [Finset.card_eq_zero, Finset.filter_eq_empty_iff]
  intro i hi
  rw [Finset.mem_range] at hi
  rcases Nat.eq_zero_or_pos i with h | h
  · subst h; linarith
  · have := he 0 i h hi; linarith

/-- The half-open bins (last one closed): what "x lies in bin k" means. -/
def InBin (e : Arr1 ℝ) (k : ℕ) (x : ℝ) : Prop :=
  k + 1 < e.n ∧ e.get k ≤ x ∧ (x < e.get (k + 1) ∨ (k + 2 = e.n ∧ x = e.get (k + 1)))

/-- Every value in the range of the edges lies in one of the bins. -/
theorem exists_inBin {e : Arr1 ℝ} (hn : 2 ≤ e.n) {x : ℝ} (h0 : e.get 0 ≤ x)
    (h1 : x ≤ e.get (e.n - 1)) : ∃ k, InBin e k x := by
  by_cases hlast : x = e.get (e.n - 1)
  · by_cases hp : e.get (e.n - 2) ≤ x
    · refine ⟨e.n - 2, by omega, hp, Or.inr ⟨by omega, ?_⟩⟩
      rw [hlast]; congr 1; omega
    · -- the last edge is not the largest: search below
      have : ∃ k, k + 1 < e.n ∧ e.get k ≤ x ∧ x < e.get (k + 1) := by
        by_contra hno
        push Not at hno
        have hall : ∀ k, k + 1 < e.n → e.get k ≤ x := by
          intro k
          induction k with
          | zero => intro _; exact h0
          | succ k ih => intro hk; exact hno k (by omega) (ih (by omega))
        exact hp (hall (e.n - 2) (by omega))
      obtain ⟨k, hk, h2, h3⟩ := this
      exact ⟨k, hk, h2, Or.inl h3⟩
  · have hlt : x < e.get (e.n - 1) := lt_of_le_of_ne h1 hlast
    have : ∃ k, k + 1 < e.n ∧ e.get k ≤ x ∧ x < e.get (k + 1) := by
      by_contra hno
      push Not at hno
      have hall : ∀ k, k < e.n → e.get k ≤ x := by
        intro k
        induction k with
        | zero => intro _; exact h0
        | succ k ih => intro hk; exact hno k hk (ih (by omega))
      exact absurd (hall (e.n - 1) (by omega)) (not_le.2 hlt)
    obtain ⟨k, hk, h2, h3⟩ := this
    exact ⟨k, hk, h2, Or.inl h3⟩

/-- `binOf` computes the half-open bins. -/
theorem binOf_eq_some_iff {e : Arr1 ℝ} (he : StrictEdges e) (hn : 2 ≤ e.n) (x : ℝ) (k : ℕ) :
    binOf e x = some k ↔ InBin e k x := by
  have hin : ∀ k, InBin e k x → binOf e x = some k := by
    rintro k ⟨hk, h1, h2 | ⟨h3, h4⟩⟩
    · have hd := digitize_eq he hk h1 h2
      have hne : x ≠ e.get (e.n - 1) := by
        rcases Nat.lt_or_ge (k + 1) (e.n - 1) with h | h
        · have := he (k + 1) (e.n - 1) h (by omega); intro hx; linarith
        · have : k + 1 = e.n - 1 := by omega
          rw [← this]; exact ne_of_lt h2
      simp only [binOf, hd, if_neg hne]
      rw [if_pos (by omega)]; simp
    · have hx : x = e.get (e.n - 1) := by rw [h4]; congr 1; omega
      have hd := digitize_last he (by omega) hx.ge
      simp only [binOf, hd, if_pos hx]
      rw [if_pos (by omega)]
      congr 1; omega
  constructor
  · intro h
    by_cases h0 : e.get 0 ≤ x
    · by_cases h1 : x ≤ e.get (e.n - 1)
      · obtain ⟨k', hk'⟩ := exists_inBin hn h0 h1
        have := hin k' hk'
        rw [h] at this
        cases this
        exact hk'
      · exfalso
        push Not at h1
        have hd := digitize_last he (by omega) h1.le
        simp only [binOf, hd, if_neg (ne_of_gt h1)] at h
        rw [if_neg (by omega)] at h
        cases h
    · exfalso
      push Not at h0
      have hd := digitize_zero he h0
      simp only [binOf, hd] at h
      split at h <;> simp at h
  · exact hin k

/-- A value lies in at most one bin. -/
theorem inBin_unique {e : Arr1 ℝ} (he : StrictEdges e) (hn : 2 ≤ e.n) {x : ℝ} {k k' : ℕ}
    (h : InBin e k x) (h' : InBin e k' x) : k = k' := by
  have h1 := (binOf_eq_some_iff he hn x k).2 h
  have h2 := (binOf_eq_some_iff he hn x k').2 h'
  rw [h1] at h2
  exact Option.some.inj h2

end TS
