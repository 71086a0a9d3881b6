import Verif.Model.HighMoments
import Verif.Model.StatsUtils
import Mathlib.Data.List.Sort

/-! Model of turbustat/statistics/pdf/compare_pdf.py, class PDF (without the model fits). -/

namespace TS
open Finset

/-- compare_pdf.py:56-57 finite and above `min_val` (`none` is the default `-inf`). -/
def aboveMin (minVal : Option ℝ) (v : ℝ) : Prop := ∀ m, minVal = some m → m < v

noncomputable instance (minVal : Option ℝ) (v : ℝ) : Decidable (aboveMin minVal v) := Classical.propDecidable _

/-- compare_pdf.py:51-68 the kept (and weighted) data, in array order; `none` entries are the non-finite
numbers.  Weights of another shape cannot be indexed by the mask. -/
noncomputable def pdfKeep (minVal : Option ℝ) (img : List (Option ℝ)) : Option (List (Option ℝ)) → Py (List ℝ)
  | none => .ok (img.filterMap (fun v => v.bind (fun x => if aboveMin minVal x then some x else none)))
  | some w =>
    if w.length ≠ img.length then .error .indexError
    else .ok ((img.zip w).filterMap (fun t => t.1.bind (fun x =>
      if aboveMin minVal x then t.2.map (fun y => x * y) else none)))

/-- Attributes of a `PDF`. -/
structure PdfObj where
  data : List (Option ℝ)
  bins : Option BinsArg
  pdf : Option (Arr1 (Option ℝ))
  ecdf : Option (Arr1 ℝ)

/-- compare_pdf.py:44-82 `PDF.__init__`; normalisation may produce NaN (constant data). -/
noncomputable def pdfInit (img : List (Option ℝ)) (minVal : Option ℝ) (bins : Option BinsArg)
    (weights : Option (List (Option ℝ))) (norm : Option String) : Py PdfObj := do
  let kept ← pdfKeep minVal img weights
  let data ← match norm with
    | none => Except.ok (kept.map some)
    | some t => dataNormalization (kept.map some) t
  return ⟨data, bins, none, none⟩

open Classical in
/-- `np.histogram(data, bins, density=True)`: edges and densities.  A bin number needs finite data, given
edges must not decrease (NaN data fall in no bin then). -/
noncomputable def npHistogram (data : List (Option ℝ)) : BinsArg → Py (Arr1 ℝ × Arr1 (Option ℝ))
  | .count k =>
    if k = 0 ∨ none ∈ data then .error .valueError
    else (histEdges k (validVals data)).map (fun e => (e, histDensity e (validVals data)))
  | .edges e =>
    if ∃ i ∈ range (e.n - 1), e.get (i + 1) < e.get i then .error .valueError
    else .ok (e, histDensity e (validVals data))

/-- compare_pdf.py:97-100 the default number of bins. -/
noncomputable def pdfAutoBins (data : List (Option ℝ)) : BinsArg := .count (npRound (Real.sqrt data.length)).toNat

/-- compare_pdf.py:84-108 `PDF.make_pdf`.  Line 108 overwrites the bins by their centres. -/
noncomputable def makePdf (o : PdfObj) (bins : Option BinsArg) : Py PdfObj := do
  let b : BinsArg := match bins with
    | some b => b
    | none => match o.bins with
      | some b => b
      | none => pdfAutoBins o.data
  let (e, p) ← npHistogram o.data b
  return { o with pdf := some p, bins := some (.edges (binCentres e)) }

/-- `statsmodels` `ECDF(data)` at `x`: the fraction of values `≤ x`. -/
noncomputable def ecdfAt (data : List (Option ℝ)) (x : ℝ) : ℝ :=
  ((data.filter (fun v => v.any (fun t => decide (t ≤ x)))).length : ℝ) / data.length

/-- The bins as an array (after `make_pdf` they are the centres). -/
def PdfObj.centres (o : PdfObj) : Arr1 ℝ :=
  match o.bins with
  | some (.edges e) => e
  | _ => ⟨0, fun _ => 0⟩

/-- compare_pdf.py:128-138 `PDF.make_ecdf`. -/
noncomputable def makeEcdf (o : PdfObj) : Py PdfObj := do
  let o ← if o.pdf.isNone then makePdf o none else Except.ok o
  return { o with ecdf := some (o.centres.map (ecdfAt o.data)) }

/-- compare_pdf.py:508-540 `PDF.run` without fit and plots. -/
noncomputable def runPdf (o : PdfObj) (bins : Option BinsArg) : Py PdfObj := do
  let o ← makePdf o bins
  makeEcdf o

/-- compare_pdf.py:147-161 `PDF.find_percentile` for one value. -/
noncomputable def findPercentile (o : PdfObj) (x : ℝ) : Py ℝ := do
  let o ← if o.ecdf.isNone then makeEcdf o else Except.ok o
  return ecdfAt o.data x * 100

/-- `np.percentile(data, q)`, linear interpolation between order statistics. -/
noncomputable def npPercentile (v : List ℝ) (q : ℝ) : ℝ :=
  let s := v.insertionSort (· ≤ ·)
  let pos := q / 100 * ((v.length : ℝ) - 1)
  let k := ⌊pos⌋₊
  let a := s.getD k 0
  let b := s.getD (min (k + 1) (v.length - 1)) 0
  a + (b - a) * (pos - k)

/-- compare_pdf.py:163-176 `PDF.find_at_percentile` for one percentile; NaN data give NaN, no data an
error. -/
noncomputable def findAtPercentile (o : PdfObj) (q : ℝ) : Py (Option ℝ) :=
  if 100 < q ∨ q < 0 then .error .valueError
  else if o.data = [] then .error .indexError
  else if none ∈ o.data then .ok none
  else .ok (some (npPercentile (validVals o.data) q))

end TS
