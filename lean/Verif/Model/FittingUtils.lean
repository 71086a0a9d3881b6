import Verif.Np.Core
import Mathlib.Data.Real.Basic

/-! Model of the helpers in `turbustat/statistics/fitting_utils.py`. -/

namespace TS

/-- fitting_utils.py:312-313 `clip_func` on one entry (`none` = NaN, for which both comparisons
are False). -/
noncomputable def clipFunc (low high : ℝ) (x : Option ℝ) : Bool :=
  match x with
  | none => false
  | some v => decide (low < v) && decide (v ≤ high)

/-- How a fitting limit may be given: nothing, a scalar quantity, a bare Python number, or an
array (with or without unit) of any length. -/
inductive LimArg where
  | none
  | scalarQuantity (v : ℝ)
  | bareNumber (v : ℝ)
  | array (l : List ℝ)

/-- fitting_utils.py:289-297 / 299-307: one limit expanded to one entry per dataset.  A bare
number has no `len` (TypeError). -/
noncomputable def checkFitLimit : LimArg → Py (List (Option ℝ))
  | .none => .ok [Option.none, Option.none]
  | .scalarQuantity v => .ok [some v, some v]
  | .bareNumber _ => .error .typeError
  | .array l => if l.length = 2 then .ok (l.map some) else .error .valueError

/-- fitting_utils.py:274-309 `check_fit_limits`. -/
noncomputable def checkFitLimits (xlow xhigh : LimArg) :
    Py (List (Option ℝ) × List (Option ℝ)) := do
  let a ← checkFitLimit xlow
  let b ← checkFitLimit xhigh
  return (a, b)

/-- The index vectors `np.random.choice(n - 1, n)` can return: `n` draws with replacement from
`0, ..., n-2`; for `n ≤ 1` numpy raises ValueError (nothing to choose from). -/
def choiceDraw (n : ℕ) (idx : ℕ → ℕ) : Prop := 2 ≤ n ∧ ∀ i < n, idx i < n - 1

/-- fitting_utils.py:323-335: one resampled dependent variable
`y + y_res[np.random.choice(y_res.size - 1, y_res.size)]` with `y = model.wendog` (the data) and
`y_res = wresid`. -/
def bootReplicate (wendog wresid : ℕ → ℝ) (idx : ℕ → ℕ) : ℕ → ℝ :=
  fun i => wendog i + wresid (idx i)

end TS
