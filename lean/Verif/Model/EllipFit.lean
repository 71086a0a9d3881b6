import Verif.Model.EllipPlaw
import Verif.Model.PlawFit
import Verif.Model.Pdf

/-! Model of `fit_elliptical_powerlaw` (turbustat/statistics/elliptical_powerlaw.py:11-191) and of its two
callers `fit_2Dpspec` (base_pspec2.py:368-486) and `SCF.fit_2Dplaw` (scf/scf.py:430-533).  The
Levenberg-Marquardt fitter of astropy and the random permutations are parameters. -/

namespace TS

/-- Parameters of `LogEllipticalPowerLaw2D` (elliptical_powerlaw.py:232-235); `e = none` is `np.inf`. -/
structure EllipPar where
  amp : ℝ
  e : Option ℝ
  theta : ℝ
  gamma : ℝ

/-- The model at a point. -/
noncomputable def EllipPar.eval (p : EllipPar) (x y : ℝ) : ℝ := ellipEvaluate x y p.amp p.e p.theta p.gamma

/-- The astropy fitter: whether the ellipse is fixed, the weights, the starting parameters and the points
`(x, y, value)`; returns the parameters and the diagonal of `fit_info['param_cov']` (one entry per free
parameter, `none` when there is no covariance). -/
abbrev LevMar := Bool → Option (List ℝ) → EllipPar → List (ℝ × ℝ × ℝ) → EllipPar × Option (List ℝ)

/-- elliptical_powerlaw.py:11-14 options. -/
structure EllipOpts where
  method : String := "LevMarq"
  bootstrap : Bool := false
  niters : ℕ := 100
  alpha : ℝ := 0.6827
  radial : Bool := false
  fix : Bool := false

/-- elliptical_powerlaw.py:79-80 all values must be finite. -/
def finitePts (pts : List (ℝ × ℝ × FVal)) : Py (List (ℝ × ℝ × ℝ)) :=
  pts.mapM (fun q => match q.2.2 with
    | .fin v => .ok (q.1, q.2.1, v)
    | _ => .error .valueError)

/-- elliptical_powerlaw.py:107,120 sum of absolute residuals. -/
noncomputable def absResid (d : List (ℝ × ℝ × ℝ)) (p : EllipPar) : ℝ :=
  (d.map (fun q => |q.2.2 - p.eval q.1 q.2.1|)).sum

/-- elliptical_powerlaw.py:84-87 weights (a point at the origin has an infinite one in numpy, 0 here). -/
noncomputable def radialWeights (radial : Bool) (d : List (ℝ × ℝ × ℝ)) : Option (List ℝ) :=
  if radial then some (d.map (fun q => 1 / Real.sqrt (q.1 ^ 2 + q.2.1 ^ 2))) else none

/-- elliptical_powerlaw.py:93-126 the returned model and the covariance held by the returned fitter.  The
second fit is run by the first fitter object too, so that its `fit_info` is the one of the second fit; the
fitter returned with the second model has never been used and holds no covariance. -/
noncomputable def ellipBest (lm : LevMar) (o : EllipOpts) (p0 : EllipPar) (d : List (ℝ × ℝ × ℝ)) :
    EllipPar × Option (List ℝ) :=
  let w := radialWeights o.radial d
  if o.fix then lm true w { p0 with e := none } d
  else
    let r := lm false w p0 d
    let f := lm false w { p0 with theta := modPi (p0.theta + Real.pi / 2) } d
    if absResid d f.1 < absResid d r.1 then (f.1, none) else (r.1, f.2)

/-- elliptical_powerlaw.py:134-143 one bootstrap replicate: the data plus the permuted residuals. -/
noncomputable def ellipReplicate (p : EllipPar) (d : List (ℝ × ℝ × ℝ)) (perm : ℕ → ℕ) : List (ℝ × ℝ × ℝ) :=
  (List.range d.length).map (fun i =>
    let q := d.getD i (0, 0, 0)
    let s := d.getD (perm i) (0, 0, 0)
    (q.1, q.2.1, q.2.2 + (s.2.2 - p.eval s.1 s.2.1)))

/-- elliptical_powerlaw.py:145-170 half the width of the central interval of one parameter. -/
noncomputable def halfWidth (alpha : ℝ) (l : List ℝ) : ℝ :=
  0.5 * (npPercentile l (100 * (0.5 + alpha / 2)) - npPercentile l (100 * (0.5 - alpha / 2)))

/-- elliptical_powerlaw.py:130-170 bootstrap errors; an infinite ellipticity parameter gives NaN (any
infinite one does here; in numpy some orders leave a number). -/
noncomputable def ellipBootErrs (lm : LevMar) (o : EllipOpts) (perms : ℕ → ℕ → ℕ) (p : EllipPar)
    (d : List (ℝ × ℝ × ℝ)) : List (Option ℝ) :=
  let reps := (List.range o.niters).map (fun k => (lm o.fix none p (ellipReplicate p d (perms k))).1)
  [some (halfWidth o.alpha (reps.map (·.amp))),
   (reps.mapM EllipPar.e).map (halfWidth o.alpha),
   some (halfWidth o.alpha (reps.map (·.theta))),
   some (halfWidth o.alpha (reps.map (·.gamma)))]

/-- elliptical_powerlaw.py:175-184 errors from the covariance. -/
noncomputable def ellipCovErrs : Option (List ℝ) → List (Option ℝ)
  | none => [none, none, none, none]
  | some c => c.map (fun v => some (Real.sqrt |v|))

/-- elliptical_powerlaw.py:11-191 `fit_elliptical_powerlaw`. -/
noncomputable def fitEllip (lm : LevMar) (perms : ℕ → ℕ → ℕ) (o : EllipOpts) (p0 : EllipPar)
    (pts : List (ℝ × ℝ × FVal)) : Py (EllipPar × List (Option ℝ)) := do
  let d ← finitePts pts
  if o.method = "LevMarq" then
    let r := ellipBest lm o p0 d
    return (r.1, if o.bootstrap then ellipBootErrs lm o perms r.1 d else ellipCovErrs r.2)
  else .error .valueError

/-- What the callers store (base_pspec2.py:466-478). -/
structure Fit2D where
  slope : ℝ
  slopeErr : Option ℝ
  theta : ℝ
  thetaErr : Option ℝ
  ellip : ℝ
  ellipErr : Option ℝ

/-- `stderrs[k]`. -/
def errAt (l : List (Option ℝ)) (k : ℕ) : Py (Option ℝ) :=
  if k < l.length then .ok (l.getD k none) else .error .indexError

/-- base_pspec2.py:477-478 the transformed error; `exp(-inf) = 0`. -/
noncomputable def ellipErrOf (e : Option ℝ) (err : Option ℝ) : Option ℝ :=
  match e with
  | none => err.map (fun d => 0 * d)
  | some t => err.map (fun d => inverseIntervalTransformStderr d t 0 1)

/-- base_pspec2.py:466-478, scf.py:519-531. -/
noncomputable def storeFit2D (p : EllipPar) (errs : List (Option ℝ)) : Py Fit2D := do
  let s ← errAt errs 3
  let t ← errAt errs 2
  let e ← errAt errs 1
  return ⟨p.gamma, s, modPi p.theta, t, ellipOf p.e, ellipErrOf p.e e⟩

/-- The pixels selected by a mask with their coordinates and values, row by row. -/
def maskedPts (n m : ℕ) (x y : ℕ → ℕ → ℝ) (v : ℕ → ℕ → FVal) (mask : ℕ → ℕ → Bool) : List (ℝ × ℝ × FVal) :=
  (List.range n).flatMap (fun i => (List.range m).filterMap (fun j =>
    if mask i j then some (x i j, y i j, v i j) else none))

/-- base_pspec2.py:427-428 `use_azimmask` with the stored mask, if there is one. -/
def azimKeep (azim : Option (Arr2 Bool)) (use : Bool) (i j : ℕ) : Bool :=
  match azim with
  | none => true
  | some a => if use then a.get i j else true

/-- base_pspec2.py:90-104 the attribute `_azim_mask` after `compute_radial_pspec`: overwritten when
azimuthal limits are given, otherwise untouched. -/
def storeAzim (old : Option (Arr2 Bool)) (new : Option (Arr2 Bool)) : Option (Arr2 Bool) :=
  match new with
  | some a => some a
  | none => old

/-- base_pspec2.py:408-478 `fit_2Dpspec` with given starting parameters; `ps` is the public `ps2D`, `fmax`
the largest frequency of the 1D spectrum, limits in 1/pixel. -/
noncomputable def fit2Dpspec (lm : LevMar) (perms : ℕ → ℕ → ℕ) (o : EllipOpts) (p0 : EllipPar)
    (low high : Option ℝ) (fmax : ℝ) (azim : Option (Arr2 Bool)) (useAzim : Bool) (ps : Arr2 (Option ℝ)) :
    Py Fit2D := do
  let g := makeRadialFreqArrays ps.n ps.m
  let lo := lowCutFor low ps.n ps.m
  let hi := high.getD fmax
  let pts := maskedPts ps.n ps.m (fun i j => g.2.get i j) (fun i j => g.1.get i j) (fun i j => log10F (ps.get i j))
    (fun i j => clipFunc lo hi (some (Real.sqrt (g.1.get i j ^ 2 + g.2.get i j ^ 2))) && azimKeep azim useAzim i j)
  if pts.length = 0 then .error .valueError
  else
    let r ← fitEllip lm perms o p0 pts
    storeFit2D r.1 r.2

/-- scf.py:458-531 `SCF.fit_2Dplaw` with given starting parameters; `step` is the lag spacing in pixels,
limits in pixels.  The coordinates handed to the fit are in steps, not pixels. -/
noncomputable def fit2Dplaw (lm : LevMar) (perms : ℕ → ℕ → ℕ) (o : EllipOpts) (p0 : EllipPar) (step lo hi : ℝ)
    (azim : Option (Arr2 Bool)) (useAzim : Bool) (surf : Arr2 (Option ℝ)) : Py (EllipPar × Fit2D) := do
  let g := makeRadialArrays surf.n surf.m none none
  let yy := g.1.slice0 ⟨none, none, -1⟩
  let xx := g.2.slice0 ⟨none, none, -1⟩
  let pts := maskedPts surf.n surf.m (fun i j => (xx.get i j : ℝ)) (fun i j => (yy.get i j : ℝ))
    (fun i j => log10F (surf.get i j))
    (fun i j => clipFunc lo hi (some (Real.sqrt ((yy.get i j : ℝ) ^ 2 + (xx.get i j : ℝ) ^ 2) * step)) &&
      azimKeep azim useAzim i j)
  if pts.length = 0 then .error .valueError
  else
    let r ← fitEllip lm perms o p0 pts
    return (r.1, ← storeFit2D r.1 r.2)

end TS
