import Verif.Model.Pdf
import Mathlib.Analysis.SpecialFunctions.Log.Basic
import Mathlib.Analysis.SpecialFunctions.Trigonometric.Basic

/-! Model of `PDF.fit_pdf` (turbustat/statistics/pdf/compare_pdf.py:178-335): the likelihood handed to the
optimiser and the bookkeeping around it.  `model.fit` of scipy (starting values) and the Nelder-Mead
optimiser of statsmodels are parameters. -/

namespace TS

/-- compare_pdf.py:178-180 the fixing options. -/
structure FitFixes where
  floc : Bool := true
  loc : ℝ := 0
  fscale : Bool := false
  scale : ℝ := 1

/-- `l[-k]`. -/
def fromEnd (l : List ℝ) (k : ℕ) : Py ℝ :=
  if k ≤ l.length then .ok (l.getD (l.length - k) 0) else .error .indexError

/-- compare_pdf.py:231-242 the shape parameters, `loc` and `scale` taken from a parameter vector; with both
fixed no branch assigns them. -/
def splitParams (f : FitFixes) (ps : List ℝ) : Py (List ℝ × ℝ × ℝ) :=
  match f.floc, f.fscale with
  | false, false => do return (ps.take (ps.length - 2), ← fromEnd ps 2, ← fromEnd ps 1)
  | false, true => do return (ps.take (ps.length - 1), ← fromEnd ps 1, f.scale)
  | true, false => do return (ps.take (ps.length - 1), f.loc, ← fromEnd ps 1)
  | true, true => .error .unboundLocal

/-- compare_pdf.py:227-253 `Likelihood.loglike`; `none` is `-inf`.  `logpdf shapes loc scale x` is the
scipy density, `none` where it is not finite. -/
noncomputable def loglike (logpdf : List ℝ → ℝ → ℝ → ℝ → Option ℝ) (f : FitFixes) (data : List ℝ) (ps : List ℝ) :
    Py (Option ℝ) := do
  let (shapes, loc, scale) ← splitParams f ps
  return ((data.mapM (logpdf shapes loc scale)).map List.sum)

/-- scipy `lognorm.logpdf(x, s, loc, scale)`: not finite outside the support or for invalid parameters. -/
noncomputable def lognormLogpdf (shapes : List ℝ) (loc scale x : ℝ) : Option ℝ :=
  match shapes with
  | [s] =>
    if 0 < s ∧ 0 < scale ∧ 0 < (x - loc) / scale then
      some (-Real.log ((x - loc) / scale) ^ 2 / (2 * s ^ 2)
        - Real.log (s * ((x - loc) / scale) * Real.sqrt (2 * Real.pi)) - Real.log scale)
    else none
  | _ => none

/-- compare_pdf.py:278-291 the starting values; `sfit data floc fscale` is scipy's `model.fit`, returning
the shapes, then `loc`, then `scale`. -/
def initParams (sfit : List ℝ → Option ℝ → Option ℝ → Py (List ℝ)) (f : FitFixes) (data : List ℝ) : Py (List ℝ) :=
  match f.floc, f.fscale with
  | true, true => sfit data none none
  | true, false => do
    let r ← sfit data (some f.loc) none
    return r.take (r.length - 2) ++ [← fromEnd r 1]
  | false, true => do
    let r ← sfit data none (some f.scale)
    return r.take (r.length - 2) ++ [← fromEnd r 2]
  | false, false => sfit data none none

/-- compare_pdf.py:178-311 `fit_pdf` for `fit_type='mle'`: the stored `model_params`. -/
noncomputable def fitPdf (sfit : List ℝ → Option ℝ → Option ℝ → Py (List ℝ))
    (opt : (List ℝ → Py (Option ℝ)) → List ℝ → Py (List ℝ))
    (logpdf : List ℝ → ℝ → ℝ → ℝ → Option ℝ) (fitType : String) (f : FitFixes) (data : List ℝ) : Py (List ℝ) :=
  if fitType ≠ "mle" ∧ fitType ≠ "mcmc" then .error .valueError
  else do
    let p0 ← initParams sfit f data
    opt (loglike logpdf f data) p0

end TS
