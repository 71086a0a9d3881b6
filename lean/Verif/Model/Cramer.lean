import Verif.Model.ThreeDToTwoD

/-! Model of `turbustat/statistics/cramer/cramer.py`. -/

namespace TS
open Finset

/-- sklearn's `check_array`: at least one sample and one feature, no NaN. -/
def SkValid (a : Arr2 (Option ℝ)) : Prop :=
  0 < a.n ∧ 0 < a.m ∧ ∀ i < a.n, ∀ j < a.m, a.get i j ≠ none

/-- cramer.py:145-158 `np.sqrt(pairwise_distances(a, b, metric='euclidean'))[i, j]` on valid input. -/
noncomputable def rootDist (a b : Arr2 (Option ℝ)) (i j : ℕ) : ℝ :=
  Real.sqrt (Real.sqrt (∑ k ∈ range a.m, ((a.get i k).getD 0 - (b.get j k).getD 0) ^ 2))

/-- cramer.py:160-179 the three sums and the distance, for `larger` (m rows) and `smaller` (n rows). -/
noncomputable def cramerTerms (larger smaller : Arr2 (Option ℝ)) : ℝ :=
  let m := larger.n
  let n := smaller.n
  let term1 := ∑ i ∈ range m, ∑ j ∈ range n, rootDist larger smaller i j
  let term2 := ∑ i ∈ range m, ∑ ii ∈ range m, rootDist larger larger i ii
  let term3 := ∑ i ∈ range m, if i < n then ∑ jj ∈ range n, rootDist smaller smaller i jj else 0
  let m : ℝ := m
  let n : ℝ := n
  let term1 := term1 * (1 / (m * n))
  let term2 := term2 * (1 / (2 * m ^ 2))
  let term3 := term3 * (1 / (2 * n ^ 2))
  (m * n / (m + n)) * (term1 - term2 - term3)

open Classical in
/-- cramer.py:122-179 `Cramer_Distance.cramer_statistic`. sklearn raises ValueError on NaN, on empty
input and on different numbers of features. -/
noncomputable def cramerStatistic (d1 d2 : Arr2 (Option ℝ)) : Py ℝ :=
  let larger := if d2.n ≤ d1.n then d1 else d2
  let smaller := if d2.n ≤ d1.n then d2 else d1
  if SkValid larger ∧ SkValid smaller ∧ larger.m = smaller.m then .ok (cramerTerms larger smaller)
  else .error .valueError

/-- External contract of `np.random.choice(row, k, replace=False)` after `np.random.seed(seed)`: for row
`i` of a matrix with `n` columns a selection of `k` different columns, always the same one. -/
structure Choice where
  pick : (n k i : ℕ) → ℕ → ℕ
  lt : ∀ n k i, k ≤ n → ∀ s < k, pick n k i s < n
  inj : ∀ n k i, k ≤ n → ∀ s < k, ∀ t < k, pick n k i s = pick n k i t → s = t

/-- cramer.py:102-109 / 113-120 every row reduced to `k` of its entries. -/
def subsample (c : Choice) (a : Arr2 (Option ℝ)) (k : ℕ) : Arr2 (Option ℝ) :=
  ⟨a.n, k, fun i s => a.get i (c.pick a.m k i s)⟩

/-- cramer.py:91-120 the two matrices with the same number of columns. -/
def matchSamples (c : Choice) (a b : Arr2 (Option ℝ)) : Arr2 (Option ℝ) × Arr2 (Option ℝ) :=
  if a.m ≠ b.m then
    if a.m < b.m then (a, subsample c b a.m) else (subsample c a b.m, b)
  else (a, b)

/-- cramer.py:188-212 `Cramer_Distance.distance_metric` (intensity format, `p = 0.2`). -/
noncomputable def cramerDistance (c : Choice) (cube1 cube2 : Arr3 (Option ℝ)) (noise1 noise2 : Option ℝ)
    (normalize : Bool) : Py ℝ := do
  let d1 ← formatData cube1 "intensity" (some 1000) (fun _ => 0) noise1 0.2 normalize
  let d2 ← formatData cube2 "intensity" (some 1000) (fun _ => 0) noise2 0.2 normalize
  let d := matchSamples c d1 d2
  cramerStatistic d.1 d.2

end TS
