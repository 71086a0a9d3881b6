import Verif.Model.Pdf
import Verif.Model.Distances

/-! Model of turbustat/statistics/pdf/compare_pdf.py, class PDF_Distance (lines 543-716). -/

namespace TS
open Finset

/-- Arguments of `PDF_Distance.__init__` that belong to one image. -/
structure PdfInput where
  img : List (Option ℝ)
  minVal : Option ℝ := none
  weights : Option (List (Option ℝ)) := none

/-- The arguments shared by both images. -/
structure PdfDistOpts where
  doFit : Bool := true
  norm : Option String := none
  nbins : Option ℕ := none
  binMin : Option ℝ := none
  binMax : Option ℝ := none

/-- A `PDF_Distance`: both PDFs and the common edges. -/
structure PdfDist where
  pdf1 : PdfObj
  pdf2 : PdfObj
  bins : Arr1 ℝ

/-- compare_pdf.py:588-591 log-normal fits of data that may be negative are refused. -/
def pdfFitAllowed (o : PdfDistOpts) : Bool :=
  !(o.doFit && (o.norm = some "standardize" || o.norm = some "center"))

/-- compare_pdf.py:582-611 `PDF_Distance.__init__` (without the fits of `run`, see `fitPdf`); the plain
`Exception` of line 590 is `runtimeError` here. -/
noncomputable def pdfDistInit (a b : PdfInput) (o : PdfDistOpts) : Py PdfDist :=
  if pdfFitAllowed o = false then .error .runtimeError
  else do
    let p1 ← pdfInit a.img a.minVal none a.weights o.norm
    let p2 ← pdfInit b.img b.minVal none b.weights o.norm
    let e ← commonHistogramBins 1 1 p1.data p2.data { nbins := o.nbins, minVal := o.binMin, maxVal := o.binMax }
    let r1 ← runPdf p1 (some (.edges e))
    let r2 ← runPdf p2 (some (.edges e))
    return ⟨r1, r2, e⟩

/-- `pdf / pdf.sum()`, NaN when any density is. -/
noncomputable def pdfUnit (p : Arr1 (Option ℝ)) : Arr1 (Option ℝ) :=
  ⟨p.n, fun i => divO (p.get i) (rowSum p.get p.n)⟩

/-- compare_pdf.py:613-622 `compute_hellinger_distance`. -/
noncomputable def pdfDistHellinger (d : PdfDist) : Py ℝ :=
  match d.pdf1.pdf, d.pdf2.pdf with
  | some p, some q => hellinger (pdfUnit p) (pdfUnit q) 1
  | _, _ => .error .typeError

/-- `scipy.stats.ks_2samp` (external): the largest difference of the two ECDFs over the pooled values; NaN
data give NaN, no data an error. -/
noncomputable def ksStat (x y : List (Option ℝ)) : Py (Option ℝ) :=
  if x = [] ∨ y = [] then .error .valueError
  else if none ∈ x ∨ none ∈ y then .ok none
  else .ok (some (((validVals x ++ validVals y).map (fun t => |ecdfAt x t - ecdfAt y t|)).foldr max 0))

/-- compare_pdf.py:624-632 `compute_ks_distance`. -/
noncomputable def pdfDistKs (d : PdfDist) : Py (Option ℝ) := ksStat d.pdf1.data d.pdf2.data

/-- A fit: parameters and standard errors. -/
structure PdfFit where
  params : List ℝ
  errs : List ℝ

/-- compare_pdf.py:648-665 `compute_lognormal_distance`, with the fits if they were made. -/
noncomputable def pdfDistLognormal : Option PdfFit → Option PdfFit → Py (Option ℝ)
  | some f, some g =>
    match f.params, g.params, f.errs, g.errs with
    | s :: _, t :: _, ds :: _, dt :: _ => .ok (absQuot (s - t) (ds ^ 2 + dt ^ 2))
    | _, _, _, _ => .error .indexError
  | _, _ => .error .runtimeError

/-- The distances stored by `distance_metric`. -/
structure PdfDistances where
  hellinger : Option ℝ := none
  ks : Option (Option ℝ) := none
  lognormal : Option (Option ℝ) := none

/-- compare_pdf.py:696-715 the choice of distances in `distance_metric` (strings compared by value; the
code uses `is`). -/
noncomputable def pdfDistMetric (d : PdfDist) (fits : Option (PdfFit × PdfFit)) (statistic : String) :
    Py PdfDistances :=
  if statistic = "all" then do
    let h ← pdfDistHellinger d
    let k ← pdfDistKs d
    match fits with
    | none => return ⟨some h, some k, none⟩
    | some (f, g) => return ⟨some h, some k, some (← pdfDistLognormal (some f) (some g))⟩
  else if statistic = "hellinger" then do return ⟨some (← pdfDistHellinger d), none, none⟩
  else if statistic = "ks" then do return ⟨none, some (← pdfDistKs d), none⟩
  else if statistic = "lognormal" then
    match fits with
    | none => .error .runtimeError
    | some (f, g) => do return ⟨none, none, some (← pdfDistLognormal (some f) (some g))⟩
  else .error .typeError

end TS
