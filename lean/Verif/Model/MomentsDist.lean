import Verif.Model.HighMoments

/-! Model of turbustat/statistics/stat_moments/highstatmoments.py, class StatMoments_Distance (lines 528-692), and of the
histogram state of StatMoments. -/

namespace TS
open Finset

/-- The four maps of a `StatMoments`, flattened. -/
structure MomMaps where
  mean : List (Option ℝ)
  variance : List (Option ℝ)
  skewness : List (Option ℝ)
  kurtosis : List (Option ℝ)

/-- A histogram: bin centres and densities. -/
abbrev MomHistogram := Arr1 ℝ × Arr1 (Option ℝ)

/-- The stored histograms. -/
structure MomHists where
  mean : MomHistogram
  variance : MomHistogram
  skewness : MomHistogram
  kurtosis : MomHistogram

/-- Attributes of a `StatMoments` after `compute_spatial_distrib`; `nbins` can be `None` (see `momSecond`). -/
structure SMoments where
  nbins : Option ℕ
  maps : MomMaps
  hists : Option MomHists := none

/-- `bins` handed to `np.histogram`: `None` raises TypeError. -/
def momBins (own : Option ℕ) (given : Option BinsArg) : Py BinsArg :=
  match given with
  | some b => .ok b
  | none => match own with
    | some k => .ok (.count k)
    | none => .error .typeError

/-- highstatmoments.py:244-297 `make_spatial_histograms`. -/
noncomputable def SMoments.makeHists (o : SMoments) (mb vb sb kb : Option BinsArg) : Py SMoments := do
  let m ← momHist o.maps.mean mb
  let v ← momHist o.maps.variance vb
  let s ← momHist o.maps.skewness sb
  let k ← momHist o.maps.kurtosis kb
  return { o with hists := some ⟨m, v, s, k⟩ }
where
  /-- highstatmoments.py:264-271 (and the same for the other three). -/
  momHist (vals : List (Option ℝ)) (b : Option BinsArg) : Py MomHistogram := do
    let b ← momBins o.nbins b
    momentHist vals b

/-- An image given to `StatMoments_Distance`: raw data (with its number of pixels), or a `StatMoments` with its radius in pixels and
its maps, if computed.  `compute r` stands for `compute_spatial_distrib` with a radius of `r` pixels, `min_frac` and the periodicity
given (model: `spatialDistrib`), including the check of the radius. -/
inductive MomSource where
  | raw (size : ℕ) (compute : ℝ → Py MomMaps)
  | object (size : ℕ) (nbins : Option ℕ) (radius : ℝ) (maps : Option MomMaps) (compute : ℝ → Py MomMaps)

/-- Number of pixels. -/
def MomSource.size : MomSource → ℕ
  | .raw s _ => s
  | .object s _ _ _ _ => s

/-- highstatmoments.py:566-571, 807-811 the number of bins of the comparison. -/
noncomputable def momAutoBins (nbins : Option ℕ) (s1 s2 : MomSource) : ℕ :=
  match nbins with
  | some k => k
  | none => ⌊Real.sqrt (min s1.size s2.size : ℕ)⌋₊

/-- highstatmoments.py:573-601 the first image: raw data get the common number of bins; an object whose radius differs by a
pixel or more is recomputed and has `nbins` set to the *argument* of the constructor, which may be `None`. -/
noncomputable def momFirst (nbins : Option ℕ) (common : ℕ) (radius : ℝ) : MomSource → Py SMoments
  | .raw _ compute => do return { nbins := some common, maps := ← compute radius }
  | .object _ own r maps compute =>
    if 1 ≤ |r - radius| then do return { nbins := nbins, maps := ← compute radius }
    else match maps with
      | none => do return { nbins := own, maps := ← compute r }
      | some m => .ok { nbins := own, maps := m }

/-- highstatmoments.py:603-628 the second image: as the first, but `nbins` of an object is left alone. -/
noncomputable def momSecond (common : ℕ) (radius : ℝ) : MomSource → Py SMoments
  | .raw _ compute => do return { nbins := some common, maps := ← compute radius }
  | .object _ own r maps compute =>
    if 1 ≤ |r - radius| then do return { nbins := own, maps := ← compute radius }
    else match maps with
      | none => do return { nbins := own, maps := ← compute r }
      | some m => .ok { nbins := own, maps := m }

/-- A `StatMoments_Distance`. -/
structure MomDist where
  nbins : ℕ
  m1 : SMoments
  m2 : SMoments
  skewness : Option ℝ := none
  kurtosis : Option ℝ := none

/-- highstatmoments.py:566-628 `StatMoments_Distance.__init__` for the two radii in pixels (their choice: `momInit`). -/
noncomputable def momDistInit (nbins : Option ℕ) (r1 r2 : ℝ) (s1 s2 : MomSource) : Py MomDist := do
  let k := momAutoBins nbins s1 s2
  let m1 ← momFirst nbins k r1 s1
  let m2 ← momSecond k r2 s2
  return { nbins := k, m1 := m1, m2 := m2 }

/-- highstatmoments.py:630-656 `create_common_histograms`: the number of bins goes to `common_histogram_bins`, where it is the
number of edges. -/
noncomputable def MomDist.commonHists (d : MomDist) (nbins : Option ℕ) : Py MomDist := do
  let n := nbins.getD d.nbins
  let sb ← commonHistogramBins 1 1 d.m1.maps.skewness d.m2.maps.skewness { nbins := some n }
  let kb ← commonHistogramBins 1 1 d.m1.maps.kurtosis d.m2.maps.kurtosis { nbins := some n }
  let m1 ← d.m1.makeHists none none (some (.edges sb)) (some (.edges kb))
  let m2 ← d.m2.makeHists none none (some (.edges sb)) (some (.edges kb))
  return { d with m1 := m1, m2 := m2 }

/-- `np.diff(centres)[0]`. -/
def firstStep (c : Arr1 ℝ) : Py ℝ := if c.n < 2 then .error .indexError else .ok (c.get 1 - c.get 0)

/-- highstatmoments.py:681-691 `distance_metric` without the plots. -/
noncomputable def MomDist.metric (d : MomDist) (nbins : Option ℕ) : Py MomDist := do
  let d ← d.commonHists nbins
  match d.m1.hists, d.m2.hists with
  | some h1, some h2 =>
    let kw ← firstStep h1.kurtosis.1
    let kd ← hellinger h1.kurtosis.2 h2.kurtosis.2 kw
    let sw ← firstStep h1.skewness.1
    let sd ← hellinger h1.skewness.2 h2.skewness.2 sw
    return { d with kurtosis := some kd, skewness := some sd }
  | _, _ => .error .attributeError

/-- highstatmoments.py:103-186 the flattened maps of a computed image. -/
def mapsOf (a : Arr2 MomentSet) : MomMaps :=
  ⟨(a.map MomentSet.mean).ravel, (a.map MomentSet.variance).ravel, (a.map MomentSet.skewness).ravel,
    (a.map MomentSet.kurtosis).ravel⟩

/-- highstatmoments.py:573-577, 599-601 raw data: `StatMoments(image, radius, …)` checks the radius, then `compute_spatial_distrib`. -/
noncomputable def rawMaps (junkI junkW : ℕ → ℕ → Option ℝ) (periodic : Bool) (minFrac : ℝ) (img wgt : Arr2 (Option ℝ)) (rad : ℝ) :
    Py MomMaps :=
  match checkRadius (min img.n img.m) (.quantity [rad] 1) with
  | .error e => .error e
  | .ok _ => match spatialDistrib junkI junkW periodic minFrac rad img wgt with
    | .error e => .error e
    | .ok a => .ok (mapsOf a)

/-- A raw image (with its weights). -/
noncomputable def rawImage (junkI junkW : ℕ → ℕ → Option ℝ) (periodic : Bool) (minFrac : ℝ) (img wgt : Arr2 (Option ℝ)) :
    MomSource :=
  .raw (img.n * img.m) (rawMaps junkI junkW periodic minFrac img wgt)

end TS
