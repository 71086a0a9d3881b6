import Verif.Model.Ellipse
import Verif.Model.Psds

/-! Model of the residuals and the bootstrapped errors of `EllipseModel` in turbustat/statistics/stats_utils.py (lines 318-487) and of
`fit_2D_ellipse` with its errors.

`scipy.optimize.leastsq` is external: a parameter from a function of one variable and a starting point to a point.  The random numbers
are parameters; plots are not modelled. -/

namespace TS

/-- stats_utils.py:345-350 `fun`: squared distance of a point from the point of the ellipse at the angle `t`. -/
noncomputable def ellipseSqDist (p : EllipseParams) (x : ℝ × ℝ) (t : ℝ) : ℝ :=
  (x.1 - (predictXY p t).1) ^ 2 + (x.2 - (predictXY p t).2) ^ 2

/-- stats_utils.py:365-366 starting point. -/
noncomputable def ellipseStart (p : EllipseParams) (x : ℝ × ℝ) : ℝ := arctan2 (x.2 - p.yc) (x.1 - p.xc) - p.theta

/-- stats_utils.py:318-376 `residuals` for one point. -/
noncomputable def ellipseResidual (leastsq : (ℝ → ℝ) → ℝ → ℝ) (p : EllipseParams) (x : ℝ × ℝ) : ℝ :=
  Real.sqrt (ellipseSqDist p x (leastsq (ellipseSqDist p x) (ellipseStart p x)))

/-- The random numbers of one iteration: a permutation, the Dirichlet weights and the signs. -/
structure EllipseDraw (n : ℕ) where
  perm : Fin n → Fin n
  weight : Fin n → ℝ × ℝ
  sign : Fin n → ℝ × ℝ

/-- stats_utils.py:440-454 the points of one iteration. -/
def ellipseResample {n : ℕ} (pts : Fin n → ℝ × ℝ) (resid : Fin n → ℝ) (d : EllipseDraw n) (i : Fin n) : ℝ × ℝ :=
  ((pts i).1 + resid (d.perm i) * (d.weight i).1 * (d.sign i).1, (pts i).2 + resid (d.perm i) * (d.weight i).2 * (d.sign i).2)

/-- stats_utils.py:479-487 half the distance of two percentiles. -/
noncomputable def halfRange (alpha : ℝ) (v : List ℝ) : ℝ :=
  0.5 * (npPercentile v (100 * (0.5 + alpha / 2)) - npPercentile v (100 * (0.5 - alpha / 2)))

/-- stats_utils.py:456-458, 479-487 `param_errs` from the fits of all iterations; a failed fit leaves `params = None`, stored as NaN, which makes
every percentile NaN (`none`). -/
noncomputable def ellipseErrsOf (alpha : ℝ) (fits : List (Option EllipseParams)) : Option EllipseParams :=
  if fits.any (fun f => f.isNone) then none
  else
    let ps := fits.filterMap id
    some ⟨halfRange alpha (ps.map EllipseParams.xc), halfRange alpha (ps.map EllipseParams.yc), halfRange alpha (ps.map EllipseParams.a),
      halfRange alpha (ps.map EllipseParams.b), halfRange alpha (ps.map EllipseParams.theta)⟩

/-- The external routines of a fit with errors. -/
structure EllipseExt where
  eig : Matrix (Fin 3) (Fin 3) ℝ → Matrix (Fin 3) (Fin 3) ℝ
  leastsq : (ℝ → ℝ) → ℝ → ℝ

/-- stats_utils.py:408-487 `estimate_stderrs(data, niters=len(draws), alpha)` of a model with parameters `p`.  Without iterations
`np.percentile` raises IndexError. -/
noncomputable def ellipseStderrs (ext : EllipseExt) (p : Option EllipseParams) {n : ℕ} (pts : Fin n → ℝ × ℝ) (draws : List (EllipseDraw n))
    (alpha : ℝ) : Py (Option EllipseParams) :=
  match p with
  | none => .error .valueError
  | some p =>
    if alpha < 0 ∨ 1 ≤ alpha then .error .valueError
    else if draws = [] then .error .indexError
    else
      let resid := fun i => ellipseResidual ext.leastsq p (pts i)
      .ok (ellipseErrsOf alpha (draws.map fun d => ellipseEstimate ext.eig (ellipseResample pts resid d)))

/-- What `fit_2D_ellipse` returns: widths along y and x, and their errors (`none` = NaN). -/
structure EllipseWidths where
  y : Option ℝ
  x : Option ℝ
  ey : Option ℝ
  ex : Option ℝ

/-- width_estimate.py:380-398 `fit_2D_ellipse`: a ValueError gives NaN. -/
noncomputable def fit2DEllipseErrs (ext : EllipseExt) {n : ℕ} (pts : Fin n → ℝ × ℝ) (draws : List (EllipseDraw n)) (alpha : ℝ) :
    Py EllipseWidths :=
  let p := ellipseEstimate ext.eig pts
  match ellipseStderrs ext p pts draws alpha with
  | .error .valueError => .ok ⟨none, none, none, none⟩
  | .error e => .error e
  | .ok errs => .ok ⟨p.map fun q => q.b / Real.sqrt 2, p.map fun q => q.a / Real.sqrt 2, errs.map fun q => q.b / Real.sqrt 2,
      errs.map fun q => q.a / Real.sqrt 2⟩

end TS
