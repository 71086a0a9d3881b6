import Verif.Model.StatsUtils

/-! The formulas of the `distance_metric` methods that compare two fitted numbers or two
histograms. -/

namespace TS
open Finset

/-- `np.abs(a / np.sqrt(v))`; a zero denominator gives NaN or inf (`none`). -/
noncomputable def absQuot (a v : ℝ) : Option ℝ :=
  if v = 0 then none else some |a / Real.sqrt v|

/-- A fitted slope with its error. -/
structure SlopeFit where
  slope : ℝ
  err : ℝ

/-- pspec_bispec/pspec.py:358-361 `PSpec_Distance.distance_metric`. -/
noncomputable def pspecDistance (a b : SlopeFit) : Option ℝ :=
  absQuot (a.slope - b.slope) (a.err ^ 2 + b.err ^ 2)

/-- vca_vcs/vca.py:344-347 `VCA_Distance.distance_metric`. -/
noncomputable def vcaDistance (a b : SlopeFit) : Option ℝ :=
  absQuot (a.slope - b.slope) (a.err ^ 2 + b.err ^ 2)

/-- mvc/mvc.py:458-461 `MVC_Distance.distance_metric`. -/
noncomputable def mvcDistance (a b : SlopeFit) : Option ℝ :=
  absQuot (a.slope - b.slope) (a.err ^ 2 + b.err ^ 2)

/-- wavelets/wavelet_transform.py:706-709 `Wavelet_Distance.distance_metric`. -/
noncomputable def waveletDistance (a b : SlopeFit) : Option ℝ :=
  absQuot (a.slope - b.slope) (a.err ^ 2 + b.err ^ 2)

/-- `np.abs(a) / np.sqrt(v)`. -/
noncomputable def quotAbs (a v : ℝ) : Option ℝ :=
  if v = 0 then none else some (|a| / Real.sqrt v)

/-- delta_variance/delta_variance.py:916-918 the slope distance of `DeltaVariance_Distance`. -/
noncomputable def deltaVarSlopeDistance (a b : SlopeFit) : Option ℝ :=
  quotAbs (a.slope - b.slope) (a.err ^ 2 + b.err ^ 2)

/-- pdf/compare_pdf.py:661-665 the lognormal distance of `PDF_Distance` (widths instead of slopes);
without a fit the method raises a bare Exception (`runtimeError`). -/
noncomputable def lognormalDistance (a b : Option SlopeFit) : Py (Option ℝ) :=
  match a, b with
  | some a, some b => .ok (quotAbs (a.slope - b.slope) (a.err ^ 2 + b.err ^ 2))
  | _, _ => .error .runtimeError

/-- dendrograms/dendro_stats.py:638-641 `Dendrogram_Distance.numfeature_stat`. -/
noncomputable def numfeatureDistance (a b : SlopeFit) : Option ℝ :=
  quotAbs (a.slope - b.slope) (a.err ^ 2 + b.err ^ 2)

/-- What a fitted VCS exposes: one slope, or two slopes and a break. -/
structure VcsFit where
  large : SlopeFit
  small : Option SlopeFit
  brk : SlopeFit

/-- Results of `VCS_Distance.distance_metric`. -/
structure VcsDist where
  large : Option ℝ
  small : Option ℝ
  brk : Option ℝ
  total : ℝ

/-- vca_vcs/vcs.py:481-506 `VCS_Distance.distance_metric`. -/
noncomputable def vcsDistance (a b : VcsFit) : VcsDist :=
  let large := absQuot (a.large.slope - b.large.slope) (a.large.err ^ 2 + b.large.err ^ 2)
  match a.small, b.small with
  | some s, some t =>
    let small := absQuot (s.slope - t.slope) (s.err ^ 2 + t.err ^ 2)
    ⟨large, small, absQuot (a.brk.slope - b.brk.slope) (a.brk.err ^ 2 + b.brk.err ^ 2),
      large.getD 0 + small.getD 0⟩
  | _, _ => ⟨large, none, none, large.getD 0⟩

/-- pdf/compare_pdf.py:613-622 `PDF_Distance.compute_hellinger_distance`: both densities divided by
their sum first. -/
noncomputable def pdfHellinger (p q : Arr1 ℝ) : Py ℝ :=
  hellinger ⟨p.n, fun i => divO (some (p.get i)) (some (∑ k ∈ range p.n, p.get k))⟩
    ⟨q.n, fun i => divO (some (q.get i)) (some (∑ k ∈ range q.n, q.get k))⟩ 1

/-- dendrograms/dendro_stats.py:893-906 `hellinger_stat`: the mean of the row distances (NaN, here
0/0, when there are no rows); different shapes fail an assertion. -/
noncomputable def hellingerStat (x y : Arr2 (Option ℝ)) : Py ℝ :=
  if x.n ≠ y.n ∨ x.m ≠ y.m then .error .runtimeError
  else do
    let ds ← (List.range x.n).mapM (fun r => hellinger ⟨x.m, x.get r⟩ ⟨y.m, y.get r⟩ 1)
    return ds.sum / x.n

/-- stat_moments/highstatmoments.py:683-691 `StatMoments_Distance.distance_metric`: Hellinger
distance of two densities on common bins of width `bw`. -/
noncomputable def statMomentsDistance (p q : Arr1 ℝ) (bw : ℝ) : Py ℝ :=
  hellinger ⟨p.n, fun i => some (p.get i)⟩ ⟨q.n, fun i => some (q.get i)⟩ bw

end TS
