import Verif.Model.StatsUtils
import Verif.Model.Psds
import Verif.Model.DeltaVariance
import Verif.Np.Histogram
import Verif.Np.Reduce

/-! Model of `turbustat/statistics/stat_moments/highstatmoments.py`. -/

namespace TS
open Finset

/-- The four moments (`none` = NaN). -/
structure MomentSet where
  mean : Option ℝ
  variance : Option ℝ
  skewness : Option ℝ
  kurtosis : Option ℝ

/-- highstatmoments.py:770-804 `compute_moments` on the flattened (pixel, weight) pairs.  Simplification:
a division by a zero standard deviation gives NaN (the code can also get an infinity, for a pixel that
differs from the mean although the weighted variance is 0; it needs a zero or negative weight). -/
noncomputable def computeMoments (px : List (Option ℝ × Option ℝ)) : MomentSet :=
  let w := some (nansum (px.map (fun p => p.2)))
  let mean := divO (some (nansum (px.map (fun p => mulO p.1 p.2)))) w
  let variance := divO (some (nansum (px.map (fun p => mulO p.2 ((subO p.1 mean).map (· ^ 2)))))) w
  let std := sqrtO variance
  let skewness := divO (some (nansum (px.map (fun p => mulO p.2 ((divO (subO p.1 mean) std).map (· ^ 3)))))) w
  let kurt := divO (some (nansum (px.map (fun p => mulO p.2 ((divO (subO p.1 mean) std).map (· ^ 4)))))) w
  ⟨mean, variance, skewness, subO kurt (some 3)⟩

/-- highstatmoments.py:754-767 `circular_region`: 1 inside, NaN outside. -/
noncomputable def circularRegion (r : ℕ) : Arr2 (Option ℝ) :=
  ⟨2 * r + 1, 2 * r + 1, fun i j =>
    if ((i : ℝ) - r) ^ 2 + ((j : ℝ) - r) ^ 2 < (r : ℝ) ^ 2 then some 1 else none⟩

/-- `np.pad(a, p, mode="wrap")`: the periodic continuation. -/
def padWrap {α : Type*} (a : Arr2 α) (p : ℕ) : Arr2 α :=
  ⟨a.n + 2 * p, a.m + 2 * p, fun i j =>
    a.get (((i : ℤ) - p) % (a.n : ℤ)).toNat (((j : ℤ) - p) % (a.m : ℤ)).toNat⟩

/-- highstatmoments.py:140-145 padding of the image or of the weights. -/
noncomputable def momentPad (junk : ℕ → ℕ → Option ℝ) (periodic : Bool) (a : Arr2 (Option ℝ)) (r : ℕ) :
    Arr2 (Option ℝ) :=
  if periodic then padWrap a r else npPad2 junk (padWith none) a r

/-- highstatmoments.py:158-161 the square around the padded pixel `(i, j)`. -/
def boxAt (a : Arr2 (Option ℝ)) (r i j : ℕ) : Arr2 (Option ℝ) :=
  (a.slice0 ⟨some ((i : ℤ) - r), some ((i : ℤ) + r + 1), 1⟩).slice1
    ⟨some ((j : ℤ) - r), some ((j : ℤ) + r + 1), 1⟩

/-- highstatmoments.py:163-166 fraction of finite entries. -/
noncomputable def finiteFrac (a : Arr2 (Option ℝ)) : ℝ := (a.nFinite : ℝ) / ((a.n * a.m : ℕ) : ℝ)

/-- All NaN. -/
def MomentSet.nan : MomentSet := ⟨none, none, none, none⟩

/-- highstatmoments.py:157-183 the moments at the padded pixel `(i, j)`. -/
noncomputable def localMoments (minFrac : ℝ) (r : ℕ) (pimg pwgt : Arr2 (Option ℝ)) (i j : ℕ) : MomentSet :=
  let bi := boxAt pimg r i j
  let bw := boxAt pwgt r i j
  if finiteFrac bi < minFrac ∨ finiteFrac bw < minFrac then MomentSet.nan
  else
    let c := circularRegion r
    let mi : Arr2 (Option ℝ) := ⟨bi.n, bi.m, fun u v => mulO (bi.get u v) (c.get u v)⟩
    let mw : Arr2 (Option ℝ) := ⟨bw.n, bw.m, fun u v => mulO (bw.get u v) (c.get u v)⟩
    computeMoments (mi.ravel.zip mw.ravel)

/-- highstatmoments.py:103-186 `compute_spatial_distrib` for a radius of `rad` pixels (radius already
validated); the result's pixel `(i, j)` comes from the padded pixel `(i + r, j + r)`. -/
noncomputable def spatialDistrib (junkI junkW : ℕ → ℕ → Option ℝ) (periodic : Bool) (minFrac rad : ℝ)
    (img wgt : Arr2 (Option ℝ)) : Py (Arr2 MomentSet) :=
  if minFrac ≤ 0 ∨ 1 < minFrac then .error .valueError
  else
    let r := ⌈rad⌉₊
    let pi := momentPad junkI periodic img r
    let pw := momentPad junkW periodic wgt r
    .ok ⟨img.n, img.m, fun i j => localMoments minFrac r pi pw (i + r) (j + r)⟩

/-- highstatmoments.py:446-478 `run`: the given `min_frac` is not handed on, so the default 0.8 of
`compute_spatial_distrib` is used. -/
noncomputable def statMomentsRun (junkI junkW : ℕ → ℕ → Option ℝ) (periodic : Bool) (_minFrac rad : ℝ)
    (img wgt : Arr2 (Option ℝ)) : Py (Arr2 MomentSet) :=
  spatialDistrib junkI junkW periodic 0.8 rad img wgt

/-- highstatmoments.py:72-94 the radius setter (`side` is the smaller map side); returns nothing on
success. -/
noncomputable def checkRadius (side : ℕ) : LagInput → Py Unit
  | .plain _ => .error .typeError
  | .foreign => .error .unitConversionError
  | .quantity v f =>
    if v.any (fun x => decide (x * f < 2)) then .error .valueError
    else if v.any (fun x => decide ((side : ℝ) / 2 < x * f)) then .error .valueError
    else .ok ()

/-- Bins given to a histogram: a number, or edges. -/
inductive BinsArg where
  | count (k : ℕ)
  | edges (e : Arr1 ℝ)

/-- highstatmoments.py:264-297 one of the four histograms: bin centres and densities. -/
noncomputable def momentHist (vals : List (Option ℝ)) (bins : BinsArg) : Py (Arr1 ℝ × Arr1 (Option ℝ)) := do
  let v := validVals vals
  let e ← match bins with
    | .count k => histEdges k v
    | .edges e => Except.ok e
  return (⟨e.n - 1, fun k => (e.get k + e.get (k + 1)) / 2⟩, histDensity e v)

end TS
