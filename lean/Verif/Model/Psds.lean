import Verif.Np.Ranges
import Mathlib.Analysis.SpecialFunctions.Complex.Arg
import Mathlib.Analysis.Real.Sqrt

/-! Model of `turbustat/statistics/psds.py`: radial grids, azimuthal wedge masks and the
radially binned profile. -/

namespace TS
open Finset

/-- psds.py:198-206 centre of one axis: `floor(n / 2)`, or `int(center)` when given. -/
noncomputable def axisCentre (n : ℕ) (center : Option ℝ) : ℤ :=
  match center with
  | none => ((n / 2 : ℕ) : ℤ)
  | some c => pyInt c

/-- psds.py:196-213 `make_radial_arrays`: `(yy, xx)`; `np.arange(-c, n - c)` has the `n` integer
entries `i - c`. -/
noncomputable def makeRadialArrays (n m : ℕ) (yc xc : Option ℝ) : Arr2 ℤ × Arr2 ℤ :=
  (⟨n, m, fun i _ => -axisCentre n yc + i⟩, ⟨n, m, fun _ j => -axisCentre m xc + j⟩)

/-- `np.fft.fftfreq(n)` : `[0, 1, ..., (n-1)//2, -(n//2), ..., -1] / n`. -/
noncomputable def fftfreq (n : ℕ) : Arr1 ℝ :=
  ⟨n, fun k => if k < (n - 1) / 2 + 1 then (k : ℝ) / n else ((k : ℝ) - n) / n⟩

/-- `np.fft.fftshift` in 1D. -/
def Arr1.fftshift {α : Type*} (a : Arr1 α) : Arr1 α := a.roll ((a.n / 2 : ℕ) : ℤ)

/-- psds.py:216-223 `make_radial_freq_arrays`: meshgrid of the shifted frequencies, with the
rows of both grids reversed by `[::-1]`. -/
noncomputable def makeRadialFreqArrays (n m : ℕ) : Arr2 ℝ × Arr2 ℝ :=
  let yf := (fftfreq n).fftshift
  let xf := (fftfreq m).fftshift
  ((Arr2.mk n m (fun i _ => yf.get i)).slice0 ⟨none, none, -1⟩,
   (Arr2.mk n m (fun _ j => xf.get j)).slice0 ⟨none, none, -1⟩)

/-- psds.py:63,87 `np.sqrt(yy**2 + xx**2)`. -/
noncomputable def hypotArr (yy xx : Arr2 ℝ) : Arr2 ℝ :=
  ⟨yy.n, yy.m, fun i j => Real.sqrt (yy.get i j ^ 2 + xx.get i j ^ 2)⟩

/-- All entries of an array, row by row (`ravel`). -/
def Arr2.ravel {α : Type*} (a : Arr2 α) : List α :=
  (List.range a.n).flatMap (fun i => (List.range a.m).map (fun j => a.get i j))

/-- `np.max` of a non-empty array (an empty one raises ValueError). -/
noncomputable def npMax (l : List ℝ) : Py ℝ :=
  match l with
  | [] => .error .valueError
  | x :: xs => .ok (xs.foldl max x)

/-- `np.min` of a non-empty array. -/
noncomputable def npMin (l : List ℝ) : Py ℝ :=
  match l with
  | [] => .error .valueError
  | x :: xs => .ok (xs.foldl min x)

/-- psds.py:87-90: distance in frequency with the zero frequency replaced by half the smallest
non-zero distance. -/
noncomputable def freqDist (n m : ℕ) : Py (Arr2 ℝ) := do
  let g := makeRadialFreqArrays n m
  let d := hypotArr g.1 g.2
  let z ← npMin (d.ravel.filter (fun x => decide (x ≠ 0)))
  return d.map (fun x => if x = 0 then z / 2 else x)

/-- `astropy.coordinates.Angle.wrap_at(pi)`: representative in `[-π, π)`. -/
noncomputable def wrapAtPi (x : ℝ) : ℝ := x - 2 * Real.pi * ⌊(x + Real.pi) / (2 * Real.pi)⌋

/-- `np.arctan2(y, x)` (signed zeros are not modelled): values in `(-π, π]`. -/
noncomputable def arctan2 (y x : ℝ) : ℝ := Complex.arg ⟨x, y⟩

/-- psds.py:115-120 comparison of one angle with the wrapped limits. -/
noncomputable def inWedge (theta0 delta : ℝ) (t : ℝ) : Bool :=
  let l0 := wrapAtPi (theta0 - 0.5 * delta)
  let l1 := wrapAtPi (theta0 + 0.5 * delta)
  if l0 < l1 then decide (l0 ≤ t) && decide (t ≤ l1)
  else decide (l0 ≤ t) || decide (t ≤ l1)

/-- psds.py:76 angle of every pixel. -/
noncomputable def thetaArr (n m : ℕ) : Arr2 ℝ :=
  let g := makeRadialArrays n m none none
  ⟨n, m, fun i j => arctan2 (g.1.get i j) (g.2.get i j)⟩

/-- psds.py:114-128: wedge, its `[::-1, ::-1]` mirror, and the filled middle block
`[ny-1:ny+1, nx-1:nx+1]`. -/
noncomputable def azimMask (n m : ℕ) (theta0 delta : ℝ) : Arr2 Bool :=
  let th := thetaArr n m
  let w : Arr2 Bool := th.map (inWedge theta0 delta)
  let wr := (w.slice0 ⟨none, none, -1⟩).slice1 ⟨none, none, -1⟩
  let ny : ℤ := ((n / 2 : ℕ) : ℤ)
  let nx : ℤ := ((m / 2 : ℕ) : ℤ)
  let ry := (PySlice.mk (some (ny - 1)) (some (ny + 1)) 1).resolve n
  let rx := (PySlice.mk (some (nx - 1)) (some (nx + 1)) 1).resolve m
  ⟨n, m, fun i j =>
    if (ry.find i).isSome && (rx.find j).isSome then true
    else w.get i j || wr.get i j⟩

/-- Mean of a list as numpy computes it (`none` = NaN for an empty list). -/
noncomputable def npMean (l : List ℝ) : Option ℝ :=
  if l.length = 0 then none else some (l.sum / l.length)

/-- `scipy.stats.binned_statistic(x, v, bins=edges, statistic=f)`, one value per bin. -/
noncomputable def binnedStatistic {β : Type*} (samples : List (ℝ × ℝ)) (edges : Arr1 ℝ)
    (f : List ℝ → β) : Arr1 β :=
  ⟨edges.n - 1, fun k => f ((samples.filter (fun s => decide (binOf edges s.1 = some k))).map (·.2))⟩

/-- Options of `pspec` (psds.py:11-14).  `thetas = some (theta_0, delta_theta)` in radians;
`delta_theta` may be missing. -/
structure PspecArgs where
  nbins : Option ℕ := none
  returnStddev : Bool := false
  binsize : ℝ := 1
  logspacing : Bool := true
  maxBin : Option ℝ := none
  minBin : Option ℝ := none
  returnFreqs : Bool := true
  theta0 : Option ℝ := none
  deltaTheta : Option ℝ := none

/-- The values returned by `pspec` (standard deviations, which involve the t-distribution and
optionally a random bootstrap, are in `Model/PsdsStd.lean`). -/
structure PspecOut where
  binCents : Arr1 ℝ
  ps1D : Arr1 (Option ℝ)
  counts : Arr1 ℕ
  azim : Option (Arr2 Bool)
  edges : Arr1 ℝ

/-- psds.py:81-82 default number of bins. -/
noncomputable def defaultNbins (maxDist binsize : ℝ) : ℕ := (npRound (maxDist / binsize) + 1).toNat

/-- psds.py:132-139: the samples handed to `binned_statistic` — distance and value of the finite
pixels inside the mask, row by row. -/
def pspecSamples (psd2 : Arr2 (Option ℝ)) (dist : Arr2 ℝ) (mask : Option (Arr2 Bool)) :
    List (ℝ × ℝ) :=
  (List.range psd2.n).flatMap (fun i => (List.range psd2.m).filterMap (fun j =>
    match psd2.get i j with
    | none => none
    | some v =>
      match mask with
      | none => some (dist.get i j, v)
      | some a => if a.get i j then some (dist.get i j, v) else none))

/-- psds.py:104-107 bin edges. -/
noncomputable def pspecEdges (logspacing : Bool) (minBin maxBin : ℝ) (nbins : ℕ) : Arr1 ℝ :=
  if logspacing then logspace (log10 minBin) (log10 maxBin) (nbins + 1)
  else linspace minBin maxBin (nbins + 1)

/-- psds.py:64-79,114-130 the wedge mask, if one was asked for. -/
noncomputable def pspecAzim (n m : ℕ) (theta0 deltaTheta : Option ℝ) : Py (Option (Arr2 Bool)) :=
  match theta0, deltaTheta with
  | none, _ => .ok none
  | some _, none => .error .valueError
  | some t, some d => .ok (some (azimMask n m t d))

/-- psds.py:61-63 pixel distances from the centre. -/
noncomputable def pspecDists (n m : ℕ) : Arr2 ℝ :=
  let g := makeRadialArrays n m none none
  hypotArr (g.1.map (fun z : ℤ => (z : ℝ))) (g.2.map (fun z : ℤ => (z : ℝ)))

/-- psds.py:81-82 number of bins. -/
noncomputable def pspecNbins (nbins : Option ℕ) (dists : Arr2 ℝ) (binsize : ℝ) : Py ℕ :=
  match nbins with
  | some k => .ok k
  | none => do return defaultNbins (← npMax dists.ravel) binsize

/-- psds.py:92-96 upper end of the binned range. -/
noncomputable def pspecMaxBin (maxBin : Option ℝ) (freqs : Bool) (dists : Arr2 ℝ) : Py ℝ :=
  match maxBin with
  | some b => .ok b
  | none => if freqs then .ok 0.5 else npMax dists.ravel

/-- psds.py:98-102 lower end of the binned range. -/
noncomputable def pspecMinBin (minBin : Option ℝ) (freqs : Bool) (n m : ℕ) : ℝ :=
  match minBin with
  | some b => b
  | none => if freqs then 1 / ((min n m : ℕ) : ℝ) else 0.5

/-- psds.py:132-193 binning of the selected pixels; with `return_stddev` bins holding at most
one pixel are set to NaN (lines 183-186). -/
noncomputable def pspecOutput (psd2 : Arr2 (Option ℝ)) (distArr : Arr2 ℝ)
    (azim : Option (Arr2 Bool)) (edges : Arr1 ℝ) (returnStddev : Bool) : PspecOut :=
  let samples := pspecSamples psd2 distArr azim
  let ps1D := binnedStatistic samples edges npMean
  let counts := binnedStatistic samples edges List.length
  let cents : Arr1 ℝ := ⟨edges.n - 1, fun k => (edges.get (k + 1) + edges.get k) / 2⟩
  if returnStddev then
    ⟨cents, ⟨ps1D.n, fun k => if counts.get k ≤ 1 then none else ps1D.get k⟩, counts, azim, edges⟩
  else ⟨cents, ps1D, counts, azim, edges⟩

/-- psds.py:11-193 `pspec` with `mean_func = np.nanmean`; NaN and infinite pixels of `psd2` are
`none` (line 132 keeps finite ones only). -/
noncomputable def pspecFn (psd2 : Arr2 (Option ℝ)) (a : PspecArgs) : Py PspecOut := do
  let dists := pspecDists psd2.n psd2.m
  let azim ← pspecAzim psd2.n psd2.m a.theta0 a.deltaTheta
  let nbins ← pspecNbins a.nbins dists a.binsize
  let distArr ← if a.returnFreqs then freqDist psd2.n psd2.m else .ok dists
  let maxBin ← pspecMaxBin a.maxBin a.returnFreqs dists
  let edges := pspecEdges a.logspacing (pspecMinBin a.minBin a.returnFreqs psd2.n psd2.m) maxBin nbins
  return pspecOutput psd2 distArr azim edges a.returnStddev

end TS
