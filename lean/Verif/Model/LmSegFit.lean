import Verif.Model.BreakFit

/-! Model of the regressions inside `turbustat/statistics/lm_seg.py` `Lm_Seg.fit_model`: the design
matrix of the segmented fit, the complete fit (loop of `Model/LmSeg.lean`, choice of the model, final
regression, parameters and slopes), and the fits with a break of the statistics that call it.

The two regressions (statsmodels OLS and WLS) are external: `lsq` for a straight line as in
`Model/PlawFit.lean`, `lsq4` for the four columns of the segmented fit.  Their contracts are
`Spec.LeastSquares` and `Spec.LeastSquares4`.  All abscissae equal (where statsmodels adds no constant
column) is not modelled. -/

namespace TS

/-- One row of the segmented regression: the columns `x`, `U`, `V`, the ordinate and the weight. -/
structure SegRow where
  x : ℝ
  u : ℝ
  v : ℝ
  y : ℝ
  w : ℝ

/-- Coefficients of the columns `1`, `x`, `U`, `V`. -/
structure Coef4 where
  c0 : ℝ
  c1 : ℝ
  c2 : ℝ
  c3 : ℝ

/-- lm_seg.py:113,186 `(x - brk) * (x > brk)`. -/
noncomputable def segU (b x : ℝ) : ℝ := if b < x then x - b else 0

/-- lm_seg.py:277-281 `deriv_max(x, brk)` with `pow=1`. -/
noncomputable def segV (b x : ℝ) : ℝ := if x < b then 0 else -1

/-- The points of the object with their weights (1 without weights). -/
def LmSeg.points (m : LmSeg) : List (ℝ × ℝ × ℝ) :=
  match m.weights with
  | none => (m.x.zip m.y).map (fun p => (p.1, p.2, 1))
  | some w => ((m.x.zip m.y).zip w).map (fun p => (p.1.1, p.1.2, p.2))

/-- lm_seg.py:113-124 the rows of the regression with break `b`. -/
noncomputable def segRows (pts : List (ℝ × ℝ × ℝ)) (b : ℝ) : List SegRow :=
  pts.map (fun q => ⟨q.1, segU b q.1, segV b q.1, q.2.1, q.2.2⟩)

/-- Value of the fitted function on one row. -/
def Coef4.at (p : Coef4) (r : SegRow) : ℝ := p.c0 + p.c1 * r.x + p.c2 * r.u + p.c3 * r.v

/-- lm_seg.py:157 `np.sum(fit.resid**2.)`: residuals are not weighted, also for WLS. -/
def residSum (rows : List SegRow) (p : Coef4) : ℝ := (rows.map (fun r => (r.y - p.at r) ^ 2)).sum

/-- lm_seg.py:102 `np.sum(init_lm.resid**2.)` for the straight line. -/
def lineResidSum (pts : List (ℝ × ℝ × ℝ)) (p : ℝ × ℝ) : ℝ :=
  (pts.map (fun q => (q.2.1 - (p.1 + p.2 * q.1)) ^ 2)).sum

/-- lm_seg.py:113-125,186-200 one segmented regression.  When every `x` is at or above the break the
column `V` is constant, `add_constant` adds nothing and reading `params[3]` raises IndexError. -/
noncomputable def segRegress (lsq4 : List SegRow → Coef4) (pts : List (ℝ × ℝ × ℝ)) (b : ℝ) :
    Py (Coef4 × ℝ) :=
  if pts.all (fun q => decide (b ≤ q.1)) then .error .indexError
  else
    let p := lsq4 (segRows pts b)
    .ok (p, residSum (segRows pts b) p)

/-- What the object holds after `fit_model`: break, whether the straight line is used, number of passes
through the loop, `params` (the break appended, lm_seg.py:254-256) and `slopes`. -/
structure SegModel where
  brk : ℝ
  failed : Bool
  count : ℕ
  params : List ℝ
  slopes : List ℝ

/-- lm_seg.py:185-207 the final regression. -/
noncomputable def segFinal (lsq : List (ℝ × ℝ × ℝ) → ℝ × ℝ) (lsq4 : List SegRow → Coef4)
    (pts : List (ℝ × ℝ × ℝ)) (r : SegResult) : Py SegModel := do
  let params ← if r.failed then .ok [(lsq pts).1, (lsq pts).2, r.brk]
    else do
      let p ← segRegress lsq4 pts r.brk
      .ok [p.1.c0, p.1.c1, p.1.c2, p.1.c3, r.brk]
  let slopes ← segSlopes params r.failed
  return ⟨r.brk, r.failed, r.count, params, slopes⟩

/-- lm_seg.py:113-169 what the loop reads from one regression. -/
noncomputable def segLoopFit (lsq4 : List SegRow → Coef4) (pts : List (ℝ × ℝ × ℝ)) (b : ℝ) : Py SegFit :=
  (segRegress lsq4 pts b).map (fun p => ⟨p.1.c2, p.1.c3, p.2⟩)

/-- lm_seg.py:72-207 `fit_model`.  Weights of another number than the finite points make WLS raise
ValueError (lm_seg.py:64-67 drops points but not their weights).  The loop never needs more than
`iter_max + 1` passes (`C11_terminates`), so the `none` branch is not reached. -/
noncomputable def lmSegFit (lsq : List (ℝ × ℝ × ℝ) → ℝ × ℝ) (lsq4 : List SegRow → Coef4) (o : SegOpts)
    (m : LmSeg) : Py SegModel :=
  if m.weights.any (fun w => decide (w.length ≠ m.x.length)) then .error .valueError
  else
    match segFitModel m o (lineResidSum m.points (lsq m.points))
        (fun _ b => segLoopFit lsq4 m.points b) (o.iterMax + 1) with
    | none => .error .runtimeError
    | some (.error e) => .error e
    | some (.ok r) => segFinal lsq lsq4 m.points r

/-- lm_seg.py:72-73 the defaults, which every caller uses. -/
noncomputable def SegOpts.default : SegOpts := ⟨1e-3, 100, 2, 10⟩

end TS
