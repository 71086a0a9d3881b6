import Verif.Model.Psds
import Verif.Model.PlawFit

/-! Model of the standard deviations returned by `turbustat/statistics/psds.py` `pspec` (lines 149-193) and of the weighted
fit that uses them (`base_pspec2.py:77-107,208-224`).  The quantile of Student's t (`scipy.stats.t.ppf`) and the indices drawn
by `astropy.stats.bootstrap` are parameters. -/

namespace TS

/-- psds.py:152 `np.nanstd(x, ddof=1)` of finite numbers: the divisor is one less than their number, NaN when there are fewer
than two. -/
noncomputable def sampleStd (l : List ℝ) : Option ℝ :=
  if l.length ≤ 1 then none
  else some (Real.sqrt ((l.map fun v => (v - l.sum / l.length) ^ 2).sum / ((l.length : ℝ) - 1)))

/-- `np.std(x)`: the divisor is their number. -/
noncomputable def popStd (l : List ℝ) : ℝ := Real.sqrt ((l.map fun v => (v - l.sum / l.length) ^ 2).sum / l.length)

/-- psds.py:155-158 `np.mean(bootstrap(data, boot_iter, bootfunc=np.std))`: every replicate takes as many values as there are, at the
indices drawn by `np.random.randint` below their number (here: any numbers `draw r i`, reduced modulo their number).  On an empty bin the draw fails, which `binned_statistic` reports as NaN. -/
noncomputable def resampledStd (draw : ℕ → ℕ → ℕ) (iters : ℕ) (l : List ℝ) : Option ℝ :=
  if l.length = 0 then none
  else npMean ((List.range iters).map fun r => popStd ((List.range l.length).map fun i => l.getD (draw r i % l.length) 0))

/-- psds.py:150-158 the function applied to every bin: `boot_iter` and the indices drawn for each bin, or none. -/
noncomputable def stdOf (boot : Option (ℕ × (ℕ → ℕ → ℕ → ℕ))) (k : ℕ) (l : List ℝ) : Option ℝ :=
  match boot with
  | none => sampleStd l
  | some (iters, draw) => resampledStd (draw k) iters l

/-- psds.py:172-176 `A = t_dist.ppf(alpha, bin_cts - 1) / np.sqrt(bin_cts)` with `alpha = 1 - (0.15 / 2.)`; NaN without degrees of
freedom. -/
noncomputable def errFactor (tppf : ℝ → ℕ → ℝ) (c : ℕ) : Option ℝ :=
  if c ≤ 1 then none else some (tppf (1 - 0.15 / 2) (c - 1) / Real.sqrt c)

/-- psds.py:178-186 `ps1D_stddev[A > 1] *= A[A > 1]`, then NaN for bins with one or fewer points. -/
noncomputable def correctStd (tppf : ℝ → ℕ → ℝ) (c : ℕ) (s : Option ℝ) : Option ℝ :=
  let s' := match errFactor tppf c with
    | some A => if 1 < A then s.map (· * A) else s
    | none => s
  if c ≤ 1 then none else s'

/-- psds.py:150-186 the standard deviation of every bin. -/
noncomputable def pspecStd (tppf : ℝ → ℕ → ℝ) (boot : Option (ℕ × (ℕ → ℕ → ℕ → ℕ))) (samples : List (ℝ × ℝ)) (edges : Arr1 ℝ) :
    Arr1 (Option ℝ) :=
  let counts := binnedStatistic samples edges List.length
  ⟨edges.n - 1, fun k => correctStd tppf (counts.get k) ((binnedStatistic samples edges (stdOf boot k)).get k)⟩

/-- psds.py:11-193 `pspec(..., return_stddev=True)`: the profile and its standard deviations.  `boot_iter=0` is refused by astropy as soon as
there is a value. -/
noncomputable def pspecWithStd (tppf : ℝ → ℕ → ℝ) (boot : Option (ℕ × (ℕ → ℕ → ℕ → ℕ))) (psd2 : Arr2 (Option ℝ)) (a : PspecArgs) :
    Py (PspecOut × Arr1 (Option ℝ)) := do
  let dists := pspecDists psd2.n psd2.m
  let azim ← pspecAzim psd2.n psd2.m a.theta0 a.deltaTheta
  let nbins ← pspecNbins a.nbins dists a.binsize
  let distArr ← if a.returnFreqs then freqDist psd2.n psd2.m else .ok dists
  let maxBin ← pspecMaxBin a.maxBin a.returnFreqs dists
  let edges := pspecEdges a.logspacing (pspecMinBin a.minBin a.returnFreqs psd2.n psd2.m) maxBin nbins
  let samples := pspecSamples psd2 distArr azim
  if boot.any (fun b => b.1 = 0) && !samples.isEmpty then .error .valueError
  else return (pspecOutput psd2 distArr azim edges true, pspecStd tppf boot samples edges)

/-- base_pspec2.py:77-107 `compute_radial_pspec`: the profile with its standard deviations as a list of bins. -/
noncomputable def radialBinsStd (tppf : ℝ → ℕ → ℝ) (boot : Option (ℕ × (ℕ → ℕ → ℕ → ℕ))) (ps2D : Arr2 (Option ℝ)) (a : PspecArgs) :
    Py (List PsBin) := do
  let out ← pspecWithStd tppf boot ps2D a
  return (List.range out.1.binCents.n).map (fun k => ⟨out.1.binCents.get k, out.1.ps1D.get k, out.2.get k⟩)

/-- pspec.py:98-113,187-197 `compute_pspec`, `compute_radial_pspec` and `fit_pspec(fit_unbinned=False, weighted_fit=...)` without break or beam. -/
noncomputable def weightedRun (lsq : List (ℝ × ℝ × ℝ) → ℝ × ℝ) (tppf : ℝ → ℕ → ℝ) (boot : Option (ℕ × (ℕ → ℕ → ℕ → ℕ)))
    (apod : Option ApodArgs) (a : PspecArgs) (weighted : Bool) (low high : Option ℝ) (img : Arr2 ℝ) : Py (Option (ℝ × ℝ)) := do
  let ps ← computePspec img apod
  let ps2D := (ps2DProperty ps).map some
  let bins ← radialBinsStd tppf boot ps2D a
  fitPspecLine lsq weighted low high ps2D.n ps2D.m bins

end TS
