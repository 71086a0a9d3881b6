import Verif.Model.Dendro
import Verif.Model.Distances
import Verif.Np.Histogram

/-! Model of turbustat/statistics/dendrograms/dendro_stats.py, `Dendrogram_Distance`: the histogram distance
(lines 698-769) and `distance_metric` (841-879), without the plots. -/

namespace TS
open Finset

/-- The attribute `nbins` of a `Dendrogram_Distance`: `"best"`, a number, or (after a call of `histogram_stat`) an array. -/
inductive DendroBins where
  | best
  | count (k : ℕ)
  | perRow (l : List ℕ)

/-- `numfeatures` and `values` (the peaks at each threshold) of a `Dendrogram_Stats`. -/
structure DendroData where
  num : List ℕ
  values : List (List ℝ)

/-- What `histogram_stat` stores. -/
structure DendroHist where
  bins : List (Option (Arr1 ℝ))
  h1 : Arr2 (Option ℝ)
  h2 : Arr2 (Option ℝ)
  ecdf1 : Arr2 (Option ℝ)
  ecdf2 : Arr2 (Option ℝ)
  distance : ℝ

/-- The attributes of a `Dendrogram_Distance` used by `histogram_stat`. -/
structure DendroDist where
  nbins : DendroBins
  cutoff : ℕ
  d1 : DendroData
  d2 : DendroData
  hist : Option DendroHist := none

/-- dendro_stats.py:506-514, 591-609 `Dendrogram_Distance.__init__` once both datasets have been run. -/
def dendroDistInit (d1 d2 : DendroData) (nbins : DendroBins) (minFeatures : ℕ) : Py DendroDist := do
  let c ← distCutoff d1.num d2.num minFeatures
  return { nbins := nbins, cutoff := c, d1 := d1, d2 := d2 }

/-- dendro_stats.py:718-726 one number of bins per threshold.  The comparison of an array with `"best"` is false (or, in newer
numpy, an ambiguous truth value, ValueError); the list of arrays then has an array as number of bins of each row, and `linspace`
raises TypeError for it. -/
noncomputable def dendroRowBins (o : DendroDist) : Py (List ℕ) :=
  match o.nbins with
  | .best => .ok (bestBins o.d1.num o.d2.num o.cutoff)
  | .count k => .ok (List.replicate (o.d1.num.take o.cutoff).length k)
  | .perRow _ => .error .typeError

open Classical in
/-- Python's `min(a, b)`: `b` when `b < a`, else `a`; comparisons with NaN are false. -/
noncomputable def pyMinO (a b : Option ℝ) : Option ℝ :=
  if ∃ x y, a = some x ∧ b = some y ∧ y < x then b else a

open Classical in
/-- Python's `max(a, b)`. -/
noncomputable def pyMaxO (a b : Option ℝ) : Option ℝ :=
  if ∃ x y, a = some x ∧ b = some y ∧ x < y then b else a

/-- stats_utils.py:139-155 `common_histogram_bins` for the z-scores of one threshold (`none`: the edges are NaN); the smallest of no
numbers raises ValueError. -/
noncomputable def zBins (z1 z2 : List (Option ℝ)) (num : ℕ) : Py (Option (Arr1 ℝ)) :=
  if z1 = [] ∨ z2 = [] then .error .valueError
  else .ok (match pyMinO (nanmin z1) (nanmin z2), pyMaxO (nanmax z1) (nanmax z2) with
    | some lo, some hi => some (linspace lo hi num)
    | _, _ => none)

/-- dendro_stats.py:749-753 (755-759) the densities of one threshold, and NaN up to the common width.  Edges that are NaN give
NaN densities. -/
noncomputable def dendroDens (e : Option (Arr1 ℝ)) (z : List (Option ℝ)) (k : ℕ) : Option ℝ :=
  match e with
  | none => none
  | some e => if k + 1 < e.n then (histDensity e (validVals z)).get k else none

/-- dendro_stats.py:762-763 the row, divided by its `nansum`. -/
noncomputable def dendroRow (width : ℕ) (e : Option (Arr1 ℝ)) (z : List (Option ℝ)) (k : ℕ) : Option ℝ :=
  divO (dendroDens e z k) (some (nansum ((List.range width).map (dendroDens e z))))

/-- dendro_stats.py:718-769 `histogram_stat` without the plots: the allocation (`np.max` of no numbers raises ValueError), one
row per threshold below the cutoff, the ECDFs and the mean distance. -/
noncomputable def histogramStat (o : DendroDist) : Py DendroDist := do
  let nb ← dendroRowBins o
  if nb = [] then .error .valueError
  else do
    let width := nb.foldr max 0
    let z1 := fun i => standardize ((o.d1.values.getD i []).map some)
    let z2 := fun i => standardize ((o.d2.values.getD i []).map some)
    let bins ← (List.range nb.length).mapM (fun i => zBins (z1 i) (z2 i) (nb.getD i 0 + 1))
    let h1 : Arr2 (Option ℝ) := ⟨nb.length, width, fun i => dendroRow width (bins.getD i none) (z1 i)⟩
    let h2 : Arr2 (Option ℝ) := ⟨nb.length, width, fun i => dendroRow width (bins.getD i none) (z2 i)⟩
    let d ← hellingerStat h1 h2
    return { o with nbins := .perRow nb, hist := some ⟨bins, h1, h2, mecdf h1, mecdf h2, d⟩ }

/-- dendro_stats.py:841-879 `distance_metric` without the plots: the histogram distance, then the distance of the slopes. -/
noncomputable def dendroDistMetric (o : DendroDist) (f1 f2 : SlopeFit) : Py (DendroDist × Option ℝ) := do
  let o ← histogramStat o
  return (o, numfeatureDistance f1 f2)

end TS
