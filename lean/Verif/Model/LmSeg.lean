import Verif.Np.Core
import Verif.Np.Ranges
import Verif.Model.Psds

/-! Model of `turbustat/statistics/lm_seg.py` (segmented linear regression).  The least-squares
solver (statsmodels OLS/WLS) is external: it is an arbitrary function, and may raise. -/

namespace TS

/-- The object after `__init__`: the finite points. -/
structure LmSeg where
  x : List ℝ
  y : List ℝ
  brk : ℝ
  weights : Option (List ℝ)

/-- lm_seg.py:42-70 `Lm_Seg.__init__`.  `none` entries are NaN (infinities are not modelled);
`x.max()`/`x.min()` of an array containing NaN is NaN and both comparisons are then False;
an empty `x` makes `max` raise ValueError.  Indexing `y` with the mask requires equal lengths
(the mask broadcast of unequal lengths raises ValueError). -/
noncomputable def lmSegInit (x y : List (Option ℝ)) (brk : Option ℝ)
    (weights : Option (List (Option ℝ))) : Py LmSeg := do
  let b ← match brk with
    | none => .error .valueError
    | some b => .ok b
  let outside ← if x = [] then .error .valueError
    else if x.all Option.isSome then
      (do
        let mx ← npMax (x.filterMap id)
        let mn ← npMin (x.filterMap id)
        .ok (decide (mx < b) || decide (b < mn)))
    else .ok false
  if outside then .error .valueError
  match weights with
  | none => pure ()
  | some w =>
    if x.length ≠ w.length then .error .valueError
    if !(w.all Option.isSome) then .error .valueError
  if x.length ≠ y.length then .error .valueError
  let good := (x.zip y).filter (fun p => p.2.isSome && p.1.isSome)
  let xs := good.filterMap (fun p => p.1)
  let ys := good.filterMap (fun p => p.2)
  if xs.length ≤ 3 ∨ ys.length ≤ 3 then .error .warningRaised
  return ⟨xs, ys, b, weights.map (·.filterMap id)⟩

/-- What one regression returns: the coefficients used by the loop and the residual sum of
squares. -/
structure SegFit where
  beta : ℝ
  gamma : ℝ
  rss : ℝ

/-- Options of `fit_model` (lm_seg.py:72-73). -/
structure SegOpts where
  tol : ℝ
  iterMax : ℕ
  hStep : ℝ
  epsil0 : ℝ

/-- Loop variables of `fit_model`.  `fitRss` is the residual sum of the last in-loop fit (`none`:
the variable `fit` is unbound); `count` is a ghost counter of executed iterations. -/
structure SegSt where
  brk : ℝ
  hStep : ℝ
  epsil : ℝ
  dev0 : ℝ
  it : ℕ
  failed : Bool
  fitRss : Option ℝ
  count : ℕ

/-- `(h_step * gamma) / beta`; a zero `beta` gives NaN or an infinity (`none`). -/
noncomputable def segStep (h gamma beta : ℝ) : Option ℝ :=
  if beta = 0 then none else some (h * gamma / beta)

/-- lm_seg.py:137,145 `(x > b).any() and not (x > b).all()`.  A NaN break compares False
everywhere (no `any`), an infinite one compares equally everywhere: in all cases False. -/
noncomputable def segInside (x : List ℝ) (b : Option ℝ) : Bool :=
  match b with
  | none => false
  | some b => x.any (fun v => decide (b < v)) && !(x.all (fun v => decide (b < v)))

/-- Adding a possibly non-finite step to a possibly non-finite break. -/
noncomputable def optAdd (a b : Option ℝ) : Option ℝ := do return (← a) + (← b)
/-- Subtracting. -/
noncomputable def optSub (a b : Option ℝ) : Option ℝ := do return (← a) - (← b)

/-- lm_seg.py:138-153 the `while True` that halves the step.  Returns the accepted break (`none`
= gave up) and the final step; outer `none` = the fuel ran out (proved impossible with fuel 5). -/
noncomputable def segHalve (x : List ℝ) (gamma beta : ℝ) :
    ℕ → Option ℝ → ℝ → ℕ → Option (Option ℝ × ℝ)
  | 0, _, _, _ => none
  | fuel + 1, newBrk, h, hIt =>
    let newBrk := optSub newBrk (segStep h gamma beta)
    let h := h / 2
    let newBrk := optAdd newBrk (segStep h gamma beta)
    let hIt := hIt + 1
    if segInside x newBrk then some (newBrk, h)
    else if 5 ≤ hIt then some (none, h)
    else segHalve x gamma beta fuel newBrk h hIt

/-- lm_seg.py:113-169 one pass through the loop body (before the `it > iter_max` test). -/
noncomputable def segBody (x : List ℝ) (o : SegOpts) (f : SegFit) (s : SegSt) : Option SegSt := do
  let newBrk := optAdd (some s.brk) (segStep s.hStep f.gamma f.beta)
  let (brk, h, failed, it) ←
    if segInside x newBrk then some (newBrk.getD s.brk, s.hStep, s.failed, s.it)
    else do
      let (r, h) ← segHalve x f.gamma f.beta 5 newBrk s.hStep 0
      match r with
      | some b => some (b, h, s.failed, s.it)
      | none => some (s.brk, h, true, o.iterMax + 1)
  return { brk := brk, hStep := h, epsil := (f.rss - s.dev0) / (s.dev0 + 1e-3), dev0 := f.rss,
           it := it + 1, failed := failed, fitRss := some f.rss, count := s.count + 1 }

/-- lm_seg.py:112-174 the outer loop `while np.abs(epsil) > tol`; `fit k brk` is the regression
run in iteration `k` with the current break.  Outer `none` = out of fuel. -/
noncomputable def segLoop (x : List ℝ) (o : SegOpts) (fit : ℕ → ℝ → Py SegFit) :
    ℕ → SegSt → Option (Py SegSt)
  | 0, s => if o.tol < |s.epsil| then none else some (.ok s)
  | fuel + 1, s =>
    if o.tol < |s.epsil| then
      match fit s.count s.brk with
      | .error e => some (.error e)
      | .ok f =>
        match segBody x o f s with
        | none => none
        | some s' => if o.iterMax < s'.it then some (.ok s') else segLoop x o fit fuel s'
    else some (.ok s)

/-- Result of `fit_model`: the reported break and whether the fit without a break is used. -/
structure SegResult where
  brk : ℝ
  failed : Bool
  count : ℕ

/-- lm_seg.py:176-184 the choice between the segmented and the straight-line fit after the loop;
when the loop body never ran, line 177 reads the unbound `fit`. -/
noncomputable def segFinish (m : LmSeg) (init : ℝ) (s : SegSt) : Py SegResult := do
  let useLine ←
    if s.failed then .ok true
    else match s.fitRss with
      | none => .error .unboundLocal
      | some r => .ok (decide (init ≤ r))
  if useLine then
    let mx ← npMax m.x
    return ⟨mx, true, s.count⟩
  else return ⟨s.brk, false, s.count⟩

/-- lm_seg.py:72-184 `fit_model` up to the final regression.  `init` is the residual sum of the
straight-line fit.  Line 97 calls `warnings.warning`, which does not exist (AttributeError). -/
noncomputable def segFitModel (m : LmSeg) (o : SegOpts) (init : ℝ) (fit : ℕ → ℝ → Py SegFit)
    (fuel : ℕ) : Option (Py SegResult) :=
  if o.epsil0 < o.tol then some (.error .attributeError)
  else
    match segLoop m.x o fit fuel ⟨m.brk, o.hStep, o.epsil0, init, 0, false, none, 0⟩ with
    | none => none
    | some (.error e) => some (.error e)
    | some (.ok s) => some (segFinish m init s)

/-- lm_seg.py:212 `np.abs(x - brk).argmin()`: the first grid index nearest to the break. -/
noncomputable def segTransPt (k : List ℝ) (brk : ℝ) : ℕ :=
  k.findIdx (fun v => k.all (fun w => decide (|v - brk| ≤ |w - brk|)))

/-- lm_seg.py:209-220 `model(x)`: values on the grid `k` for parameters `p = params` (the
regression coefficients followed by the break).  Reading `p[2]` of a shorter list or an empty
grid raises. -/
noncomputable def segModel (p : List ℝ) (brk : ℝ) (k : List ℝ) : Py (List ℝ) :=
  if k = [] then .error .valueError
  else match p with
  | p0 :: p1 :: p2 :: _ =>
    let kt := k.getD (segTransPt k brk) 0
    .ok (k.map (fun v => p0 + (if v < brk then p1 * v else 0)
      + (if brk ≤ v then (p1 + p2) * v + (-p2) * kt else 0)))
  | _ => .error .indexError

/-- lm_seg.py:222-244 `get_slopes`: for a failed fit the single slope `params[1]`, otherwise
`params[1:-2]` accumulated. -/
noncomputable def segSlopes (p : List ℝ) (failed : Bool) : Py (List ℝ) :=
  match p with
  | _ :: p1 :: rest =>
    if failed then .ok [p1]
    else match rest with
      | p2 :: _ :: _ :: [] => .ok [p1, p2 + p1]
      | _ => .error .indexError
  | _ => .error .indexError

end TS
