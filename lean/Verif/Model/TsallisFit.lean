import Verif.Model.Tsallis
import Verif.Np.Reduce

/-! Model of `Tsallis.fit_tsallis`, `tsallis_table` and `run` (turbustat/statistics/tsallis/tsallis.py:161-234,
322-353).  `scipy.optimize.curve_fit` is a parameter. -/

namespace TS

/-- The parameters of `tsallis_function`, in its order (tsallis.py:458). -/
structure TsPar where
  loga : ℝ
  w2 : ℝ
  q : ℝ

/-- The function with a parameter set. -/
noncomputable def TsPar.eval (p : TsPar) (x : ℝ) : ℝ := tsallisFunction x p.loga p.w2 p.q

/-- `curve_fit`: points and starting values to the parameters and the diagonal of the covariance (`none` =
infinite), or an exception. -/
abbrev CurveFit := List (ℝ × ℝ) → TsPar → Py (TsPar × (Option ℝ × Option ℝ × Option ℝ))

/-- tsallis.py:183-189 the points fitted. -/
noncomputable def tsallisPoints (sigma : Option ℝ) (d : TsallisDist) : List (ℝ × ℝ) :=
  let xy := (List.range d.prob.n).map (fun k => (some (d.centres.get k), logProb (d.prob.get k)))
  match sigma with
  | none => xy.filterMap (fun p => match p with
      | (some x, some y) => some (x, y)
      | _ => none)
  | some s => clipToSigma s xy

/-- tsallis.py:191-192 starting values; `np.max` of nothing raises ValueError. -/
noncomputable def tsallisStart (pts : List (ℝ × ℝ)) : Py TsPar := do
  let mx ← npMax (pts.map (·.2))
  return ⟨-mx, 1, 2⟩

/-- tsallis.py:198 the stored chi-squared. -/
noncomputable def tsallisChisq (p : TsPar) (pts : List (ℝ × ℝ)) : ℝ :=
  (pts.map (fun t => (Real.exp (p.eval t.1) - Real.exp t.2) ^ 2 / Real.exp t.2)).sum

/-- One row of the results. -/
structure TsRow where
  par : TsPar
  err : Option ℝ × Option ℝ × Option ℝ
  chisq : ℝ

/-- tsallis.py:182-198 one lag. -/
noncomputable def fitTsallisAt (cf : CurveFit) (sigma : Option ℝ) (d : TsallisDist) : Py TsRow := do
  let pts := tsallisPoints sigma d
  let p0 ← tsallisStart pts
  let r ← cf pts p0
  return ⟨r.1, (r.2.1.map Real.sqrt, r.2.2.1.map Real.sqrt, r.2.2.2.map Real.sqrt), tsallisChisq r.1 pts⟩

/-- tsallis.py:161-198 `fit_tsallis`; without distributions a plain Exception (`runtimeError` here). -/
noncomputable def fitTsallis (cf : CurveFit) (sigma : Option ℝ) : Option (List TsallisDist) → Py (List TsRow)
  | none => .error .runtimeError
  | some ds => ds.mapM (fitTsallisAt cf sigma)

/-- tsallis.py:221-234 `tsallis_table`: names and columns. -/
def tsallisTable (lags : List ℝ) (rows : List TsRow) : List (String × List (Option ℝ)) :=
  [("lags", lags.map some), ("logA", rows.map (fun r => some r.par.loga)), ("w2", rows.map (fun r => some r.par.w2)),
   ("q", rows.map (fun r => some r.par.q)), ("logA_stderr", rows.map (·.err.1)), ("w2_stderr", rows.map (·.err.2.1)),
   ("q_stderr", rows.map (·.err.2.2)), ("redchisq", rows.map (fun r => some r.chisq))]

/-- tsallis.py:322-353 `run`: one distribution per lag (in whole pixels), then the fits. -/
noncomputable def tsallisRun (cf : CurveFit) (junk : ℕ → ℕ → Option ℝ) (periodic : Bool) (num : Option ℕ)
    (sigma : Option ℝ) (pixLags : List ℝ) (img : Arr2 (Option ℝ)) : Py (List TsRow) := do
  let ds ← pixLags.mapM (fun l => makeTsallisAt junk periodic num (tsallisPixLag l) img)
  fitTsallis cf sigma (some (ds.map (·.2)))

end TS
