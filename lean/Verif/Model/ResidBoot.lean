import Verif.Model.PlawFit
import Verif.Model.BreakFit
import Mathlib.Algebra.BigOperators.Fin

/-!
Model of `residual_bootstrap` (turbustat/statistics/fitting_utils.py:316-361) on a fitted statsmodels model, and of what the callers take
from it.

statsmodels is external: `ols` gives the parameters of an unweighted regression of a vector on the columns of a design matrix.  A weighted
model whitens both (rows multiplied by the square root of the weight) and regresses; its `wendog`, `wresid` are whitened, its `exog` is
not.  The random draws are parameters.  `debug` is not modelled.
-/

namespace TS

/-- statsmodels' unweighted regression: design matrix and data to parameters. -/
abbrev Ols := ∀ n p : ℕ, (Fin n → Fin p → ℝ) → (Fin n → ℝ) → Fin p → ℝ

/-- `sm.OLS(endog, exog)` (weights 1) or `sm.WLS(endog, exog, weights=weights)` after missing points were dropped. -/
structure LinModel (n p : ℕ) where
  exog : Fin n → Fin p → ℝ
  endog : Fin n → ℝ
  weights : Fin n → ℝ

variable {n p : ℕ}

/-- statsmodels `model.wendog`. -/
noncomputable def LinModel.wendog (m : LinModel n p) (i : Fin n) : ℝ := Real.sqrt (m.weights i) * m.endog i

/-- statsmodels `model.wexog`. -/
noncomputable def LinModel.wexog (m : LinModel n p) (i : Fin n) (j : Fin p) : ℝ := Real.sqrt (m.weights i) * m.exog i j

/-- statsmodels `fit().params`. -/
noncomputable def LinModel.params (ols : Ols) (m : LinModel n p) : Fin p → ℝ := ols n p m.wexog m.wendog

/-- statsmodels `fit().wresid`. -/
noncomputable def LinModel.wresid (ols : Ols) (m : LinModel n p) (i : Fin n) : ℝ :=
  m.wendog i - ∑ j, m.wexog i j * m.params ols j

/-- fitting_utils.py:323-339, 354 one resampled fit: `model.__class__(y_resamp, model.exog).fit().params`; the weights are not handed on
and default to 1, `exog` is the design before whitening. -/
noncomputable def bootSample (ols : Ols) (m : LinModel n p) (idx : Fin n → Fin n) : Fin p → ℝ :=
  ols n p m.exog (fun i => m.wendog i + m.wresid ols (idx i))

/-- What `np.std(np.array(resamps).squeeze(), axis=0)` is for two or more parameters: one number per parameter, or a single number when
there was one resampling (the spread among its parameters) or none (NaN). -/
inductive BootOut (p : ℕ) where
  | perParam (e : Fin p → ℝ)
  | scalar (v : Option ℝ)

/-- `np.std` of a list of numbers. -/
noncomputable def bootStd (l : List ℝ) : ℝ :=
  Real.sqrt ((l.map fun v => (v - l.sum / l.length) ^ 2).sum / l.length)

/-- fitting_utils.py:332-354 `resamps`, one entry per draw (`nboot` is the number of draws); `np.random.choice(n - 1, n)` refuses a single
point. -/
noncomputable def bootSamples (ols : Ols) (m : LinModel n p) (draws : List (Fin n → Fin n)) : Py (List (Fin p → ℝ)) :=
  if n ≤ 1 ∧ draws ≠ [] then .error .valueError else .ok (draws.map (bootSample ols m))

/-- fitting_utils.py:356-361 the standard errors (at least two parameters). -/
noncomputable def residualBootstrap (ols : Ols) (m : LinModel n p) (draws : List (Fin n → Fin n)) : Py (BootOut p) := do
  let s ← bootSamples ols m draws
  match s with
  | [] => return .scalar none
  | [b] => return .scalar (some (bootStd ((List.finRange p).map b)))
  | s => return .perParam (fun j => bootStd (s.map fun b => b j))

/-- `stderrs[j]`; a single number cannot be indexed (IndexError). -/
def BootOut.at (j : Fin p) : BootOut p → Py ℝ
  | .perParam e => .ok (e j)
  | .scalar _ => .error .indexError

/-- `sm.add_constant(x)` for an `x` that is not constant. -/
def lineDesign (x : Fin n → ℝ) (i : Fin n) : Fin 2 → ℝ := ![1, x i]

/-- base_pspec2.py:294-297, scf.py:358-361, delta_variance.py:419-422, wavelet_transform.py:366-369 the slope error of a line. -/
noncomputable def bootSlopeErr (ols : Ols) (x y w : Fin n → ℝ) (draws : List (Fin n → Fin n)) : Py ℝ := do
  let r ← residualBootstrap ols ⟨lineDesign x, y, w⟩ draws
  r.at 1

/-- lm_seg.py:185-190, 277-281 the design of the fit with a break. -/
noncomputable def segDesign (brk : ℝ) (x : Fin n → ℝ) (i : Fin n) : Fin 4 → ℝ :=
  ![1, x i, if brk < x i then x i - brk else 0, if x i < brk then 0 else -1]

/-- base_pspec2.py:257-263, delta_variance.py:383-389, wavelet_transform.py:328-334, vcs.py:211-215 the errors of a fit with a break:
`stderrs[1:-1]` and `stderrs[-1]`. -/
noncomputable def bootBreakErrs (ols : Ols) (brk : ℝ) (x y w : Fin n → ℝ) (draws : List (Fin n → Fin n)) : Py (List ℝ × ℝ) := do
  let r ← residualBootstrap ols ⟨segDesign brk x, y, w⟩ draws
  match r with
  | .perParam e => return (pySlice1m1 ((List.finRange 4).map e), e 3)
  | .scalar _ => .error .indexError

/-- The points of a lag fit that reach the regression, when all of them are finite: abscissa, ordinate, weight. -/
noncomputable def lagFitPoints (w : LagWeights) (scale : ℝ) (xlow xhigh : Option ℝ) (pts : List LagPt) : List (ℝ × ℝ × ℝ) :=
  (dropMissing ((lagSelect scale xlow xhigh pts).map
    (fun p => ⟨log10F (some (p.lag * scale)), log10F p.value, lagWeight w p⟩))).map fun p => (p.x.val, p.y.val, p.w.val)

/-- The slope error of the line through a list of points.  The generator is re-seeded in every call (fitting_utils.py:331), so the draws
depend on the number of points only. -/
noncomputable def bootListErr (ols : Ols) (l : List (ℝ × ℝ × ℝ)) (draws : ∀ n, List (Fin n → Fin n)) : Py ℝ :=
  bootSlopeErr ols (fun i => (l.get i).1) (fun i => (l.get i).2.1) (fun i => (l.get i).2.2) (draws l.length)

/-- delta_variance.py:408-422 `DeltaVariance.fit_plaw(brk=None, bootstrap=True)`: the slope error, for finite points. -/
noncomputable def deltavarBootErr (ols : Ols) (xlow xhigh : Option ℝ) (pts : List LagPt) (draws : ∀ n, List (Fin n → Fin n)) : Py ℝ :=
  bootListErr ols (lagFitPoints .invSqErr 1 xlow xhigh pts) draws

end TS
