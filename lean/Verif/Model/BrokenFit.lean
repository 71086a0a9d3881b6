import Verif.Model.LmSegFit
import Verif.Model.BreakFit

/-! Model of the fits with a break from the points on: `base_pspec2.py` `fit_pspec` (225-305),
`delta_variance.py` `fit_plaw` (357-425) and `wavelet_transform.py` `fit_transform` (292-365), with the
segmented regression of `Model/LmSegFit.lean`.  The attributes that are set are in `Model/BreakFit.lean`. -/

namespace TS

/-- The entry as `Lm_Seg` sees it: only finite numbers count (lm_seg.py:58, 64). -/
def FVal.finite : FVal → Option ℝ
  | .fin v => some v
  | _ => none

/-- The line used without a break: base_pspec2.py:282-292, delta_variance.py:408-425,
wavelet_transform.py:353-372.  No break and the single slope (`none`: NaN). -/
noncomputable def fitLine (lsq : List (ℝ × ℝ × ℝ) → ℝ × ℝ) (pts : List FitPt) :
    Py (Option ℝ × Option (List ℝ)) := do
  let l ← lineFit lsq pts
  return (none, l.map (fun p => [p.2]))

/-- The points as an `Lm_Seg` object, started at a break (log10): base_pspec2.py:237,
delta_variance.py:357, wavelet_transform.py:303.  (An infinite abscissa, i.e. a lag of 0, is treated as
NaN.) -/
noncomputable def segOfPoints (weighted : Bool) (pts : List FitPt) (b : ℝ) : Py LmSeg :=
  lmSegInit (pts.map (fun p => p.x.finite)) (pts.map (fun p => p.y.finite)) (some b)
    (if weighted then some (pts.map (fun p => p.w.finite)) else none)

/-- base_pspec2.py:226-292, delta_variance.py:349-425, wavelet_transform.py:295-372: the fit with an optional
break, given as log10.  The results are the logarithm of the break, if there is one, and the slopes.  The
break counts when there are five parameters and `min_fits_pts` points below it. -/
noncomputable def fitBroken (lsq : List (ℝ × ℝ × ℝ) → ℝ × ℝ) (lsq4 : List SegRow → Coef4) (minPts : ℕ)
    (weighted : Bool) (pts : List FitPt) (brk : Option ℝ) : Py (Option ℝ × Option (List ℝ)) :=
  match brk with
  | none => fitLine lsq pts
  | some b => do
    let m ← segOfPoints weighted pts b
    let r ← lmSegFit lsq lsq4 SegOpts.default m
    if r.params.length = 5 ∧ tooFewBelow (pts.filterMap (fun p => p.x.finite)) r.brk minPts = false then
      return (some r.brk, some r.slopes)
    else fitLine lsq pts

end TS
