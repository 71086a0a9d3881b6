import Verif.Model.Bispec
import Verif.Model.GenusInit
import Verif.Model.DendroHist
import Verif.Model.Pca
import Verif.Model.MomentsDist
import Verif.Model.Scf
import Verif.Model.PdfDistance
import Verif.Model.FitPlots
import Verif.Model.DistribPlots

/-!
Model of the figures drawn by the `distance_metric` methods with `verbose=True` for the bispectrum, the genus, the dendrograms, PCA, the
higher moments, SCF and the PDF: what each call adds to the figure.  Grids, ticks, legends' places, marker shapes and
line styles are left out; colours are kept, because they tell the curves of one panel apart.  `none` is NaN.
-/

namespace TS

/-- One thing drawn: an image (row 0 at the bottom, `vmin`, `vmax` as given), a line or points with the label of the legend, bars
(centre and height) with their width, or points with errors. -/
inductive Mark where
  | image (a : Arr2 (Option ℝ)) (vmin vmax : Option ℝ)
  | line (color : String) (label : Option String) (pts : List (Option ℝ × Option ℝ))
  | bars (color : String) (width : Option ℝ) (pts : List (Option ℝ × Option ℝ))
  | points (color : String) (label : Option String) (pts : List (ℝ × Option ℝ × Option ℝ))

/-- A panel: its place (from 1) in a grid, title, axis labels, limits of the abscissa (`set_xlim`),
the colour map passed to `imshow` and what is drawn in it. -/
structure FigPanel where
  rows : ℕ
  cols : ℕ
  place : ℕ
  title : Option String := none
  xlabel : Option String := none
  ylabel : Option String := none
  xlim : Option (ℝ × ℝ) := none
  cmap : Option String := none
  marks : List Mark

/-- Colour and label of the two datasets. -/
structure Style where
  color : String
  label : String

/-! ### Bispectrum -/

/-- bispec.py:611-641 the two bicoherence surfaces. -/
def bispecFigure (a b : Arr2 (Option ℝ)) (label1 label2 : Option String) (cmap : String := "viridis") : List FigPanel :=
  [{ rows := 1, cols := 2, place := 1, title := some (label1.getD "1"), xlabel := some "k_1", ylabel := some "k_2",
     cmap := some cmap, marks := [.image a (some 0) (some 1)] },
   { rows := 1, cols := 2, place := 2, title := some (label2.getD "2"), xlabel := some "k_1",
     cmap := some cmap, marks := [.image b (some 0) (some 1)] }]

/-! ### Genus -/

/-- A list of points as drawn. -/
def drawnPts (l : List (ℝ × ℝ)) : List (Option ℝ × Option ℝ) := l.map fun p => (some p.1, some p.2)

/-- genus.py:594-639 the two curves and the two splines, in the current axes. -/
noncomputable def genusFigure (spl : Spline) (scale : ℝ) (g1 g2 : GenusCurve) (label1 label2 : Option String) (color1 color2 : String) :
    Py FigPanel := do
  let p ← genusPoints g1.thr g2.thr
  let t1 := (List.range g1.thr.n).map g1.thr.get
  let t2 := (List.range g2.thr.n).map g2.thr.get
  let f1 ← spl t1 (g1.perArea ((g1.size : ℝ) / scale))
  let f2 ← spl t2 (g2.perArea (g2.size : ℝ))
  return { rows := 1, cols := 1, place := 1, xlabel := some "z-score", ylabel := some "Genus Score",
           marks := [.line color1 label1 (drawnPts (t1.zip (g1.perArea ((g1.size : ℝ) / scale)))),
                     .line color2 label2 (drawnPts (t2.zip (g2.perArea (g2.size : ℝ)))),
                     .line color1 none (drawnPts ((List.range p.n).map fun k => (p.get k, f1 (p.get k)))),
                     .line color2 none (drawnPts ((List.range p.n).map fun k => (p.get k, f2 (p.get k))))] }

/-- `plt.legend()` (matplotlib): the labels of what was drawn, in the order of drawing; what has no label is left out. -/
def legend (p : FigPanel) : List (String × String) :=
  p.marks.filterMap fun m => match m with
    | .line c (some l) _ => some (c, l)
    | .points c (some l) _ => some (c, l)
    | _ => none

/-! ### Dendrograms -/

/-- dendro_stats.py:663-684 the figure of `numfeature_stat`: the fitted points and the fitted values `a + b x` of each dataset. -/
noncomputable def numFigure (fv1 fv2 : List (ℝ × ℝ)) (a1 b1 a2 b2 : ℝ) (s1 s2 : Style) : FigPanel :=
  { rows := 1, cols := 1, place := 1, xlabel := some "log delta", ylabel := some "log Number of Features",
    marks := [.line s1.color (some s1.label) (drawnPts fv1),
              .line s1.color none (drawnPts (fv1.map fun p => (p.1, a1 + b1 * p.1))),
              .line s2.color (some s2.label) (drawnPts fv2),
              .line s2.color none (drawnPts (fv2.map fun p => (p.1, a2 + b2 * p.1)))] }

/-- dendro_stats.py:796, 806, 814, 823 the centres of the bins of one threshold (NaN edges give NaN centres, as many as there are bins). -/
noncomputable def dendroCentres (e : Option (Arr1 ℝ)) (nb : ℕ) : List (Option ℝ) :=
  match e with
  | none => List.replicate nb none
  | some e => (List.range (e.n - 1)).map fun k => some ((e.get k + e.get (k + 1)) / 2)

/-- dendro_stats.py:813, 822 `bins[1] - bins[0]`: a single edge raises IndexError. -/
noncomputable def barWidth (e : Option (Arr1 ℝ)) (nb : ℕ) : Py (Option ℝ) :=
  match e with
  | none => if nb = 0 then .error .indexError else .ok none
  | some e => if e.n < 2 then .error .indexError else .ok (some (e.get 1 - e.get 0))

/-- dendro_stats.py:795-799 (805-809) the points of one panel: `row[:nbins]` at the centres, one set for each threshold. -/
noncomputable def ecdfMarks (color : String) (bins : List (Option (Arr1 ℝ))) (nb : List ℕ) (a : Arr2 (Option ℝ)) : List Mark :=
  (List.range nb.length).map fun n => .line color none
    ((dendroCentres (bins.getD n none) (nb.getD n 0)).zip ((List.range (nb.getD n 0)).map (a.get n)))

/-- dendro_stats.py:812-817 (821-826) the bars of one panel. -/
noncomputable def barMarks (color : String) (bins : List (Option (Arr1 ℝ))) (nb : List ℕ) (a : Arr2 (Option ℝ)) : Py (List Mark) :=
  (List.range nb.length).mapM fun n => do
    let w ← barWidth (bins.getD n none) (nb.getD n 0)
    return .bars color w ((dendroCentres (bins.getD n none) (nb.getD n 0)).zip ((List.range (nb.getD n 0)).map (a.get n)))

/-- dendro_stats.py:790-829 the figure of `histogram_stat`, from what it stored (as many thresholds as numbers of bins). -/
noncomputable def dendroHistFigure (r : DendroDist) (s1 s2 : Style) : Py (List FigPanel) :=
  match r.nbins, r.hist with
  | .perRow nb, some h => do
    let b1 ← barMarks s1.color h.bins nb h.h1
    let b2 ← barMarks s2.color h.bins nb h.h2
    return [{ rows := 2, cols := 2, place := 1, title := some s1.label, ylabel := some "ECDF", marks := ecdfMarks s1.color h.bins nb h.ecdf1 },
            { rows := 2, cols := 2, place := 2, title := some s2.label, marks := ecdfMarks s2.color h.bins nb h.ecdf2 },
            { rows := 2, cols := 2, place := 3, ylabel := some "PDF", xlabel := some "z-score", marks := b1 },
            { rows := 2, cols := 2, place := 4, xlabel := some "z-score", marks := b2 }]
  | _, _ => .error .attributeError

/-- `os.path.splitext` (Python): the part from the last dot of the file name, unless only dots precede it. -/
def splitext (p : List Char) : List Char × List Char :=
  let keep := fun c : Char => c != '.' && c != '/'
  match p.reverse.dropWhile keep with
  | '.' :: r => if (r.takeWhile (· != '/')).any (· != '.') then (r.reverse, '.' :: (p.reverse.takeWhile keep).reverse) else (p, [])
  | _ => (p, [])

/-- dendro_stats.py:861-870 the names of the two figures of `Dendrogram_Distance.distance_metric`. -/
def dendroSaveNames (name : List Char) : List Char × List Char :=
  let s := splitext name
  (s.1 ++ ".hist_distance".toList ++ s.2, s.1 ++ ".num_distance".toList ++ s.2)

/-- `plt.savefig(name)` (matplotlib, `FigureCanvasBase.print_figure`): the format is that of the extension, in lower case, which must
be supported; without extension (or with a bare dot) the default format is used and its extension appended. -/
def savefig (supported : List (List Char)) (default : List Char) (name : List Char) : Py (List Char) :=
  match (splitext name).2.drop 1 with
  | [] => .ok ((name.reverse.dropWhile (· == '.')).reverse ++ '.' :: default)
  | f => if f.map Char.toLower ∈ supported then .ok name else .error .valueError

/-- dendro_stats.py:841-879 `Dendrogram_Distance.distance_metric(verbose=True, save_name=name)`: the two distances and what is left of
them when a figure cannot be saved, and the files written. -/
noncomputable def dendroMetricSaved (supported : List (List Char)) (default : List Char) (hist num : Option ℝ) (name : List Char) :
    (Option (Option ℝ) × Option (Option ℝ)) × Py (List (List Char)) :=
  match savefig supported default (dendroSaveNames name).1 with
  | .error e => ((some hist, none), .error e)
  | .ok f1 =>
    match savefig supported default (dendroSaveNames name).2 with
    | .error e => ((some hist, some num), .error e)
    | .ok f2 => ((some hist, some num), .ok [f1, f2])

/-! ### PCA -/

/-- `np.median`; NaN of nothing or with a NaN. -/
noncomputable def medianO (x : List (Option ℝ)) : Option ℝ :=
  if none ∈ x ∨ x = [] then none else some (npPercentile (validVals x) 50)

/-- pca.py:1191-1192, 1204-1205 `plt.bar(np.arange(1, len(eigvals) + 1), eigvals, 0.5)`. -/
noncomputable def pcaDistBars (color : String) (eigs : List (Option ℝ)) : Mark :=
  .bars color (some 0.5) (((List.range eigs.length).map fun k : ℕ => some ((k : ℝ) + 1)).zip eigs)

/-- pca.py:1182-1207 the covariance matrices above, the compared eigenvalues below (`n1`, `n2`: `n_eigs` of the two objects). -/
noncomputable def pcaFigure (meanSub : Bool) (k : ℕ) (cov1 cov2 : Arr2 (Option ℝ)) (e1 e2 : List ℝ) (n1 n2 : ℕ) (s1 s2 : Style)
    (cmap : String := "viridis") : List FigPanel :=
  [{ rows := 2, cols := 2, place := 1, title := some s1.label, cmap := some cmap, marks := [.image cov1 (medianO cov1.ravel) none] },
   { rows := 2, cols := 2, place := 3, xlabel := some "Eigenvalues", ylabel := some "Proportion of Variance",
     xlim := some (0, (n1 : ℝ) + 1), marks := [pcaDistBars s1.color (pcaNormalised meanSub k e1)] },
   { rows := 2, cols := 2, place := 2, title := some s2.label, marks := [.image cov2 (medianO cov2.ravel) none] },
   { rows := 2, cols := 2, place := 4, xlabel := some "Eigenvalues",
     xlim := some (0, (n2 : ℝ) + 1), marks := [pcaDistBars s2.color (pcaNormalised meanSub k e2)] }]

/-! ### Higher moments -/

/-- A histogram as a curve. -/
def histCurve (h : MomHistogram) : List (Option ℝ × Option ℝ) :=
  (List.range (min h.1.n h.2.n)).map fun k => (some (h.1.get k), h.2.get k)

/-- highstatmoments.py:706-742 the figure of `StatMoments_Distance.distance_metric` (the filled areas under the same curves are left
out). -/
def momFigure (d : MomDist) (s1 s2 : Style) : Py (List FigPanel) :=
  match d.m1.hists, d.m2.hists with
  | some h1, some h2 =>
    .ok [{ rows := 1, cols := 2, place := 1, xlabel := some "Kurtosis", ylabel := some "PDF",
           marks := [.line s1.color (some s1.label) (histCurve h1.kurtosis), .line s2.color (some s2.label) (histCurve h2.kurtosis)] },
         { rows := 1, cols := 2, place := 2, xlabel := some "Skewness",
           marks := [.line s1.color (some s1.label) (histCurve h1.skewness), .line s2.color (some s2.label) (histCurve h2.skewness)] }]
  | _, _ => .error .attributeError

/-! ### SCF -/

/-- `a.min()`: NaN with a NaN (an empty array raises in numpy; here NaN). -/
noncomputable def arrMin (a : Arr2 (Option ℝ)) : Option ℝ := if none ∈ a.ravel then none else nanmin a.ravel

/-- scf.py:1000-1001 `(surface1 - surface2) ** 2 * weights`. -/
noncomputable def scfDifference (weighted : Bool) (size : ℕ) (s1 s2 : Arr2 (Option ℝ)) : Arr2 (Option ℝ) :=
  ⟨size, size, fun j i => (subO (s1.get j i) (s2.get j i)).map fun x => x ^ 2 * scfWeight weighted size j i⟩

/-- An SCF spectrum: lags in pixels, values, standard deviations. -/
abbrev ScfSpec := List (ℝ × Option ℝ × Option ℝ)

/-- scf.py:1042-1046 the lags in the unit of the plot. -/
noncomputable def scfSpecIn (s : Spatial) (unit : SUnit) (spec : ScfSpec) : Py ScfSpec :=
  spec.mapM fun p => do return (← convScale s unit p.1, p.2)

/-- scf.py:1017-1072 the figure of `SCF_Distance.distance_metric` (the limits of the axes of the spectra are left out). -/
noncomputable def scfFigure (weighted : Bool) (size : ℕ) (s1 s2 : Arr2 (Option ℝ)) (sp1 sp2 : Spatial) (spec1 spec2 : ScfSpec)
    (unit : SUnit) (unitName : String) (st1 st2 : Style) : Py (List FigPanel) := do
  let vmin := pyMinO (arrMin s1) (arrMin s2)
  let c1 ← scfSpecIn sp1 unit spec1
  let c2 ← scfSpecIn sp2 unit spec2
  return [{ rows := 2, cols := 2, place := 1, title := some st1.label, marks := [.image s1 vmin none] },
          { rows := 2, cols := 2, place := 2, title := some st2.label, marks := [.image s2 vmin none] },
          { rows := 2, cols := 2, place := 3, title := some "", marks := [.image (scfDifference weighted size s1 s2) none none] },
          { rows := 2, cols := 2, place := 4, xlabel := some ("Lags (" ++ unitName ++ ")"),
            marks := [.points st1.color (some st1.label) c1, .points st2.color (some st2.label) c2] }]

/-! ### PDF -/

/-- compare_pdf.py:732-739 the label of the abscissa. -/
def pdfXlabel : Option String → String
  | some "standardize" => "z-score"
  | some "center" => "I - mean(I)"
  | some "normalize_by_mean" => "I / mean(I)"
  | _ => "Intensity"

/-- compare_pdf.py:602-605 `bin_centers` of the common edges. -/
noncomputable def pdfCentres (e : Arr1 ℝ) : List ℝ := (List.range (e.n - 1)).map fun k => (e.get k + e.get (k + 1)) / 2

/-- `fit_params[:-1]` and `fit_params[-1]` with `loc=0` (compare_pdf.py:769-773, 776-780). -/
def lognormArgs (ps : List ℝ) : Py (List ℝ × ℝ) := do return (ps.dropLast, ← fromEnd ps 1)

/-- compare_pdf.py:764-781, 803-816, 829-840 the curves of the two fits, density or distribution function; `m` is `lognorm`. -/
noncomputable def fitCurves (f : List ℝ → ℝ → ℝ → ℝ → ℝ) (vals : List ℝ) (p1 p2 : List ℝ) (s1 s2 : Style) : Py (List Mark) := do
  let a1 ← lognormArgs p1
  let a2 ← lognormArgs p2
  return [.line s1.color none (drawnPts (vals.map fun x => (x, f a1.1 0 a1.2 x))),
          .line s2.color none (drawnPts (vals.map fun x => (x, f a2.1 0 a2.2 x)))]

/-- compare_pdf.py:754-844 the figure of `PDF_Distance.distance_metric`; `fits` are the parameters when the fit was asked for. -/
noncomputable def pdfFigure (d : PdfDist) (norm : Option String) (m : DistModel) (fits : Option (List ℝ × List ℝ)) (s1 s2 : Style) :
    Py (List FigPanel) :=
  match d.pdf1.pdf, d.pdf2.pdf, d.pdf1.ecdf, d.pdf2.ecdf with
  | some p, some q, some c1, some c2 => do
    let cs := pdfCentres d.bins
    let pts := fun (a : Arr1 (Option ℝ)) => (cs.map some).zip ((List.range a.n).map a.get)
    let ept := fun (a : Arr1 ℝ) => drawnPts (cs.zip ((List.range a.n).map a.get))
    let (dens, dist) ← match fits with
      | none => pure ([], [])
      | some (p1, p2) => do
        let vals ← shownVals cs
        pure (← fitCurves m.pdf vals p1 p2 s1 s2, ← fitCurves m.cdf vals p1 p2 s1 s2)
    return [{ rows := 1, cols := 2, place := 1, xlabel := some (pdfXlabel norm), ylabel := some "PDF",
              marks := [Mark.line s1.color (some s1.label) (pts p), Mark.line s2.color (some s2.label) (pts q)] ++ dens },
            { rows := 1, cols := 2, place := 2, xlabel := some (pdfXlabel norm), ylabel := some "ECDF",
              marks := [Mark.line s1.color (some s1.label) (ept c1), Mark.line s2.color (some s2.label) (ept c2)] ++ dist }]
  | _, _, _, _ => .error .typeError

end TS
