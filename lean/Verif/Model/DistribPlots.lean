import Verif.Model.PdfFit
import Verif.Model.PcaFit
import Verif.Model.SpecWidth
import Verif.Model.TsallisFit
import Verif.Model.FitPlots

/-!
Model of the numbers handed to matplotlib by `PDF.plot_distrib` and `PDF.trace_plot`, `PCA.plot_fit`, `Tsallis.plot_fit` and
`plot_parameters`, `Genus.plot_fit`, `Dendrogram_Stats.plot_fit`, and of the state of a `PDF` object they depend on.  Colours, labels and
axis ranges are left out.
-/

namespace TS

/-! ### PDF -/

/-- A scipy distribution: density and distribution function with shapes, `loc`, `scale` at a value. -/
structure DistModel where
  pdf : List ℝ → ℝ → ℝ → ℝ → ℝ
  cdf : List ℝ → ℝ → ℝ → ℝ → ℝ

/-- The attributes of a `PDF` object used by the plots (compare_pdf.py:70-82, 212-214, 295, 304, 316): `normalization_type` (`none` for "None"), bin centres, PDF
and ECDF; `_do_fit`, `_fit_fixes`, `_scipy_model` and `_model_params`, which `fit_pdf` sets. -/
structure PdfState where
  norm : Option String
  bins : List ℝ
  pdf : List ℝ
  ecdf : List ℝ
  doFit : Bool := false
  fixes : Option FitFixes := none
  model : Option DistModel := none
  params : Option (List ℝ) := none

/-- compare_pdf.py:209-318 `fit_pdf` as a step of the object: the attributes assigned before an exception keep their new values.
`start` are the starting values (`initParams`) and `opt` the result of the optimiser or sampler from them. -/
def PdfState.fit (o : PdfState) (m : DistModel) (f : FitFixes) (fitType : String) (start : Py (List ℝ)) (opt : List ℝ → Py (List ℝ)) :
    PdfState × Option PyErr :=
  if fitType ≠ "mle" ∧ fitType ≠ "mcmc" then (o, some .valueError)
  else
    match start with
    | .error e => ({ o with fixes := some f, doFit := true }, some e)
    | .ok p0 =>
      match opt p0 with
      | .error e => ({ o with fixes := some f, doFit := true, model := some m }, some e)
      | .ok p => ({ o with fixes := some f, doFit := true, model := some m, params := some p }, none)

/-- compare_pdf.py:447-462 shapes, `loc` and `scale` shown. -/
def shownParams (f : FitFixes) (ps : List ℝ) : Py (List ℝ × ℝ × ℝ) :=
  match f.floc, f.fscale with
  | true, true => .ok (ps, f.loc, f.scale)
  | true, false => do return (ps.take (ps.length - 1), f.loc, ← fromEnd ps 1)
  | false, true => do return (ps.take (ps.length - 1), ← fromEnd ps 1, f.scale)
  | false, false => do return (ps.take (ps.length - 2), ← fromEnd ps 2, ← fromEnd ps 1)

/-- What `plot_distrib` draws: the PDF and its model, the ECDF and its model. -/
structure DistribPlot where
  points : List (ℝ × ℝ)
  curve : Option (List (ℝ × ℝ))
  ecdf : Option (List (ℝ × ℝ))
  ecurve : Option (List (ℝ × ℝ))

/-- compare_pdf.py:444 the 1000 values from the first to the last bin. -/
noncomputable def shownVals (bins : List ℝ) : Py (List ℝ) :=
  match bins with
  | [] => .error .indexError
  | b :: _ => .ok ((List.range 1000).map (linspace b (bins.getLastD b) 1000).get)

/-- compare_pdf.py:337-344 an attribute that may not have been set (the getter of `model_params` raises a plain Exception, `runtimeError`
here). -/
def orRaise {α : Type} (e : PyErr) : Option α → Py α
  | some a => .ok a
  | none => .error e

/-- compare_pdf.py:442-469, 482-495 the curves of the fitted model. -/
noncomputable def pdfCurves (o : PdfState) (showEcdf : Bool) : Py (List (ℝ × ℝ) × Option (List (ℝ × ℝ))) := do
  let vals ← shownVals o.bins
  let f ← orRaise .attributeError o.fixes
  let ps ← orRaise .runtimeError o.params
  let q ← shownParams f ps
  let m ← orRaise .attributeError o.model
  return (vals.map fun x => (x, m.pdf q.1 q.2.1 q.2.2 x),
    if showEcdf then some (vals.map fun x => (x, m.cdf q.1 (if o.norm = none then 0 else q.2.1) q.2.2 x)) else none)

/-- compare_pdf.py:401-506 `plot_distrib`. -/
noncomputable def plotDistrib (o : PdfState) (showEcdf : Bool) : Py DistribPlot :=
  if o.doFit then do
    let c ← pdfCurves o showEcdf
    return ⟨o.bins.zip o.pdf, some c.1, if showEcdf then some (o.bins.zip o.ecdf) else none, c.2⟩
  else .ok ⟨o.bins.zip o.pdf, none, if showEcdf then some (o.bins.zip o.ecdf) else none, none⟩

/-! ### panels -/

/-- What `plt.subplots(n, 1)` returns: one `Axes`, or an array of them. -/
inductive Panels | single | array (n : ℕ)

/-- `plt.subplots(n, 1)` (matplotlib): no rows is a ValueError. -/
def subplots (n : ℕ) : Py Panels :=
  if n = 0 then .error .valueError else if n = 1 then .ok .single else .ok (.array n)

/-- compare_pdf.py:388-396 `trace_plot`: `chain` are the samples of each parameter; a single `Axes` has no `ravel`. -/
def tracePlot (chain : List (List ℝ)) : Py (List (List ℝ)) := do
  match ← subplots chain.length with
  | .single => .error .attributeError
  | .array _ => return chain

/-! ### Tsallis -/

/-- One panel of `Tsallis.plot_fit`: the distribution, the fitted function at the same places, the vertical lines. -/
structure TsPanel where
  lag : ℝ
  points : List (ℝ × Option ℝ)
  curve : List (ℝ × ℝ)
  lines : List ℝ

/-- tsallis.py:299-312 one panel. -/
noncomputable def tsPanel (sigma : Option ℝ) (lag : ℝ) (d : TsallisDist) (p : TsPar) : TsPanel :=
  ⟨lag, (List.range d.prob.n).map (fun k => (d.centres.get k, logProb (d.prob.get k))),
    (List.range d.prob.n).map (fun k => (d.centres.get k, p.eval (d.centres.get k))),
    match sigma with
    | some s => [s, -s]
    | none => []⟩

/-- tsallis.py:277-320 `plot_fit`: `zip` over a single `Axes` raises TypeError. -/
noncomputable def tsallisPlotFit (lags : List ℝ) (ds : List TsallisDist) (ps : List TsPar) (sigma : Option ℝ) : Py (List TsPanel) := do
  match ← subplots lags.length with
  | .single => .error .typeError
  | .array _ => return (lags.zip (ds.zip ps)).map fun t => tsPanel sigma t.1 t.2.1 t.2.2

/-- A column of a table by name. -/
def tableCol (t : List (String × List (Option ℝ))) (name : String) : Py (List (Option ℝ)) :=
  match t.find? (fun c => c.1 = name) with
  | some c => .ok c.2
  | none => .error .keyError

/-- tsallis.py:236-275 `plot_parameters`: three panels with values and error bars over the lags. -/
def tsallisPlotPars (lags : List ℝ) (rows : List TsRow) : Py (List (List (ℝ × Option ℝ × Option ℝ))) :=
  [("logA", "logA_stderr"), ("w2", "w2_stderr"), ("q", "q_stderr")].mapM fun c => do
    let v ← tableCol (tsallisTable lags rows) c.1
    let e ← tableCol (tsallisTable lags rows) c.2
    return lags.zip (v.zip e)

/-! ### Genus -/

/-- One panel of `Genus.plot_fit`: the grid, the place in it (from 1), the curve, and whether the abscissa has a label. -/
structure GenusPanel where
  rows : ℕ
  cols : ℕ
  place : ℕ
  curve : List (ℝ × ℤ)
  label : Bool

/-- genus.py:411 `num_cols`, which is the number of rows of the grid. -/
def genusRows (num : ℕ) : ℕ := if num % 2 = 0 then num / 2 else num / 2 + 1

/-- genus.py:413-446 the panel of one smoothing radius, `i` from 1 (standardising with a standard deviation of 0 gives infinities or
NaN in numpy, 0 here). -/
noncomputable def genusPanel (num : ℕ) (thresholds : List ℝ) (stats : List (List ℤ)) (means stds : List ℝ) (standardize : Bool) (i : ℕ) :
    GenusPanel :=
  ⟨if num = 1 then 1 else genusRows num, if num = 1 then 1 else 2, i,
    (if standardize then thresholds.map fun t => (t - means.getD (i - 1) 0) / stds.getD (i - 1) 1 else thresholds).zip (stats.getD (i - 1) []),
    decide (num + 1 - i ≤ 2)⟩

/-- genus.py:395-454 `Genus.plot_fit`. -/
noncomputable def genusPlotFit (num : ℕ) (thresholds : List ℝ) (stats : List (List ℤ)) (means stds : List ℝ) (standardize : Bool) :
    List GenusPanel :=
  (List.range num).map fun k => genusPanel num thresholds stats means stds standardize (k + 1)

/-! ### dendrograms -/

/-- A bar: its centre, height and width. -/
structure Bar where
  centre : ℝ
  height : ℝ
  width : ℝ

/-- dendro_stats.py:389-395 the bars of one histogram; a histogram without bins is left out, one with a single bin has no `bins[1]`. -/
noncomputable def histBars (h : List ℝ × List ℝ) : Py (List Bar) :=
  match h.1 with
  | [] => .ok []
  | [_] => .error .indexError
  | b0 :: b1 :: _ => .ok ((h.1.zip h.2).map fun t => ⟨t.1, t.2, |b1 - b0|⟩)

/-- dendro_stats.py:237-239 a histogram of `make_hists`: the centres of the bins and the counts. -/
noncomputable def histOf (edges counts : List ℝ) : List ℝ × List ℝ :=
  ((edges.zip edges.tail).map fun e => (e.1 + e.2) / 2, counts)

/-- dendro_stats.py:347-404 `Dendrogram_Stats.plot_fit`: points, line `a + b x` and histograms.  Without `make_hists` it raises. -/
noncomputable def dendroPlotFit (fitvals : List (ℝ × ℝ)) (a b : ℝ) (hists : Option (List (List ℝ × List ℝ))) (showHists : Bool) :
    Py (List (ℝ × ℝ) × List (ℝ × ℝ) × List (List Bar)) := do
  let bars ← if showHists then
      match hists with
      | none => Except.error PyErr.valueError
      | some hs => hs.mapM histBars
    else pure []
  return (fitvals, fitvals.map (fun p => (p.1, a + b * p.1)), bars)

/-! ### PCA -/

/-- `plt.bar(x, height)` (matplotlib): the two are broadcast against each other. -/
def barPlot (x h : List ℝ) : Py (List (ℝ × ℝ)) :=
  if x.length = h.length then .ok (x.zip h)
  else match h, x with
    | [v], _ => .ok (x.map fun t => (t, v))
    | _, [t] => .ok (h.map fun v => (t, v))
    | _, _ => .error .valueError

/-- pca.py:803-807 the bars of the eigenvalues: as many places as the object has components, as many heights as are asked for. -/
def pcaBars (nEigs : ℕ) (eigvals : List ℝ) (asked : Option ℕ) : Py (List (ℝ × ℝ)) :=
  barPlot ((List.range nEigs).map fun k : ℕ => (k : ℝ) + 1) (eigvals.take (asked.getD nEigs))

/-- A width in the requested unit, NaN stays NaN (pca.py:394-418). -/
noncomputable def convScaleO (s : Spatial) (unit : SUnit) : Option ℝ → Py (Option ℝ)
  | none => (convScale s unit 0).map fun _ => none
  | some x => (convScale s unit x).map some

/-- The panel of the size-linewidth relation, in logarithms: points with errors, line, limits, residuals. -/
structure SlPanel where
  points : List (Option ℝ × Option ℝ)
  errs : List (Option ℝ × Option ℝ)
  curve : List (ℝ × ℝ)
  limits : ℝ × ℝ
  resid : Option (List (Option ℝ × Option ℝ))

/-- pca.py:868-870, 896-899 the fitted linewidth at a size (both in logarithms), the size in pixels, the linewidth in the unit of the plot. -/
noncomputable def slModel (index intercept conv x : ℝ) : ℝ := log10 ((10 : ℝ) ^ (index * x + log10 intercept) * conv)

/-- pca.py:855-862 the abscissae of the line: in the unit of the plot, and in pixels.  Without widths there is no line. -/
noncomputable def slGrid (xw xp : List (Option ℝ)) : List (ℝ × ℝ) :=
  match nanmin xw, nanmax xw, nanmin xp, nanmax xp with
  | some a, some b, some c, some d => (List.range (xw.length * 10)).map fun k =>
      ((linspace (log10 a) (log10 b) (xw.length * 10)).get k, (linspace (log10 c) (log10 d) (xw.length * 10)).get k)
  | _, _, _, _ => []

/-- pca.py:825-905 the size-linewidth panel of `PCA.plot_fit`: the widths are positive numbers in pixels or NaN, `index` and `intercept`
(in channels) those of the fit, `lo` and `hi` its limits in pixels. -/
noncomputable def pcaPlotFit (s : Spatial) (h : SpecHeader) (index intercept lo hi : ℝ) (ws : List WidthPt) (su : SUnit) (vu : SpecUnit)
    (showResid : Bool) : Py SlPanel := do
  let xw ← ws.mapM fun p => convScaleO s su p.x
  let ex ← ws.mapM fun p => convScaleO s su p.ex
  let yw ← spectralWidth h (ws.map (·.y)) vu
  let ey ← spectralWidth h (ws.map (·.ey)) vu
  let lo ← convScale s su lo
  let hi ← convScale s su hi
  let conv ← toSpectral h 1 .pix vu
  return { points := (xw.map (Option.map log10)).zip (yw.map (Option.map log10))
           errs := ((ex.zip xw).map fun t => mulO (some 0.434) (divO t.1 t.2)).zip ((ey.zip yw).map fun t => mulO (some 0.434) (divO t.1 t.2))
           curve := (slGrid xw (ws.map (·.x))).map fun t => (t.1, slModel index intercept conv t.2)
           limits := (log10 lo, log10 hi)
           resid := if showResid then
               some ((xw.zip (yw.zip ws)).map fun t => (t.1.map log10,
                 subO (t.2.1.map log10) (t.2.2.x.map fun x => slModel index intercept conv (log10 x))))
             else none }

/-- An attribute of an object: a number, or a method that has not been called. -/
inductive CallableAttr | number (v : ℝ) | method

/-- `np.log10` of an attribute: numpy refuses a method with TypeError. -/
noncomputable def log10Attr : CallableAttr → Py ℝ
  | .number v => .ok (log10 v)
  | .method => .error .typeError

/-- pca.py:647-651 `PCA.model`: `intercept` is the attribute used. -/
noncomputable def pcaModel (index : ℝ) (intercept : CallableAttr) (x : ℝ) : Py ℝ := do
  let l ← log10Attr intercept
  return index * x + l

/-- pca.py:621-632 `PCA.intercept` is a method. -/
def pcaInterceptAttr : CallableAttr := .method

end TS
