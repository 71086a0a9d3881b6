import Verif.Model.PlawFit
import Verif.Model.LmSeg

/-! Model of the attributes that the power-law fits with an optional break leave on the object:
`base_pspec2.py` `fit_pspec` (225-305), `delta_variance.py` `fit_plaw` (357-438) and
`wavelet_transform.py` `fit_transform` (292-378), of the errors of the segmented fit
(`lm_seg.py` 202-244, 286-301) and of `vcs.py` `fit_pspec` (91-221).

The regressions are external.  What they return is an argument of the functions below. -/

namespace TS

/-- The three fits. -/
inductive FitKind where
  | pspec
  | deltavar
  | wavelet
  deriving DecidableEq

/-- Physical dimension of a reported break. -/
inductive BrkUnit where
  | pix
  | perPix
  deriving DecidableEq

/-- Outcome of `Lm_Seg(x, y, brk).fit_model()`: whether a break was fitted (`params.size == 5`),
the fitted break (log10), the slopes and their errors, the break error, and the standard errors
that `residual_bootstrap(fit)` returns, one per regression coefficient. -/
structure SegOut where
  found : Bool
  brk : ℝ
  slopes : List ℝ
  slopeErrs : List ℝ
  brkErr : ℝ
  boot : List ℝ

/-- Outcome of the straight-line regression: coefficients `[intercept, slope]`, their standard
errors, and the bootstrap ones. -/
structure LinOut where
  slope : ℝ
  slopeErr : ℝ
  bootErr : ℝ

/-- The attributes `_brk`, `_brk_err`, `_slope`, `_slope_err`.  Outer `none` = never set (reading
the property raises AttributeError); for the first two, `some none` = Python `None`.  A scalar
slope is a list of one entry. -/
structure FitAttrs where
  brk : Option (Option (ℝ × BrkUnit))
  brkErr : Option (Option (ℝ × BrkUnit))
  slope : Option (List ℝ)
  slopeErr : Option (List ℝ)

/-- A new object. -/
def FitAttrs.fresh : FitAttrs := ⟨none, none, none, none⟩

/-- Unit attached to the break: base_pspec2.py:253, delta_variance.py:379,
wavelet_transform.py:324. -/
def brkUnit : FitKind → BrkUnit
  | .pspec => .perPix
  | .deltavar => .pix
  | .wavelet => .perPix

/-- `sum(x < brk) < min_fits_pts` (base_pspec2.py:243, delta_variance.py:369,
wavelet_transform.py:314). -/
noncomputable def tooFewBelow (x : List ℝ) (brk : ℝ) (minPts : ℕ) : Bool :=
  decide ((x.filter (fun v => decide (v < brk))).length < minPts)

/-- `stderrs[1:-1]`. -/
def pySlice1m1 (l : List ℝ) : List ℝ := (l.drop 1).take (l.length - 2)

/-- base_pspec2.py:248-271, delta_variance.py:375-396, wavelet_transform.py:319-341: the
attributes set for an accepted break (`stderrs[-1]` of an empty list would raise; the bootstrap
always returns one entry per coefficient). -/
noncomputable def setBroken (k : FitKind) (bootstrap : Bool) (g : SegOut) : FitAttrs :=
  let b := (10 : ℝ) ^ g.brk
  let e := if bootstrap then g.boot.getLastD 0 else g.brkErr
  ⟨some (some (b, brkUnit k)), some (some (Real.log 10 * b * e, brkUnit k)), some g.slopes,
   some (if bootstrap then pySlice1m1 g.boot else g.slopeErrs)⟩

/-- base_pspec2.py:282-300, delta_variance.py:408-425, wavelet_transform.py:353-374: the straight
line; `_brk_err` is left alone. -/
noncomputable def setLine (bootstrap : Bool) (l : LinOut) (s : FitAttrs) : FitAttrs :=
  { s with brk := some none, slope := some [l.slope],
           slopeErr := some [if bootstrap then l.bootErr else l.slopeErr] }

/-- The fit with its optional break: `seg` is the outcome of the segmented regression when a break
was requested (`none`: no `brk` argument).  Only `base_pspec2.py:279-280` resets `_brk_err`, and
only when no break is requested. -/
noncomputable def breakFit (k : FitKind) (bootstrap : Bool) (x : List ℝ) (minPts : ℕ)
    (seg : Option SegOut) (lin : LinOut) (s : FitAttrs) : FitAttrs :=
  match seg with
  | none =>
    setLine bootstrap lin (if k = .pspec then { s with brkErr := some none } else s)
  | some g =>
    if g.found then
      if tooFewBelow x g.brk minPts then setLine bootstrap lin s
      else setBroken k bootstrap g
    else setLine bootstrap lin s

/-- Reading a property backed by an attribute. -/
def readAttr {α : Type} : Option α → Py α
  | none => .error .attributeError
  | some v => .ok v

/-- A length with the unit it is stored in. -/
structure LenQ where
  value : ℝ
  angular : Bool

/-- delta_variance.py:352-355 the check `pix_brk < xlow or pix_brk > xhigh`.  `pix_brk` and given
limits are in pixels; missing limits are taken from the lags in the unit they are stored in, and a
comparison of pixels with an angle raises UnitConversionError.  `brk`, `xlow`, `xhigh` are already
converted to pixels. -/
noncomputable def deltavarBreakCheck (lags : List ℝ) (angular : Bool) (brk : ℝ)
    (xlow xhigh : Option ℝ) : Py Unit := do
  let lo ← match xlow with
    | some l => .ok ⟨l, false⟩
    | none => (do let v ← npMin lags; .ok ⟨v * 0.99, angular⟩ : Py LenQ)
  let hi ← match xhigh with
    | some h => .ok ⟨h, false⟩
    | none => (do let v ← npMax lags; .ok ⟨v * 1.01, angular⟩ : Py LenQ)
  if lo.angular then .error .unitConversionError
  else if brk < lo.value then .error .valueError
  else if hi.angular then .error .unitConversionError
  else if hi.value < brk then .error .valueError
  else .ok ()

/-- wavelet_transform.py:300-301, the same check; scales and limits are all in pixels. -/
noncomputable def waveletBreakCheck (pixScales : List ℝ) (brk : ℝ)
    (xlow xhigh : Option ℝ) : Py Unit := do
  let lo ← match xlow with
    | some l => .ok l
    | none => (do let v ← npMin pixScales; .ok (v * 0.99) : Py ℝ)
  let hi ← match xhigh with
    | some h => .ok h
    | none => (do let v ← npMax pixScales; .ok (v * 1.01) : Py ℝ)
  if brk < lo ∨ hi < brk then .error .valueError else .ok ()

/-! ### Errors of the segmented fit -/

/-- lm_seg.py:286-301 `brk_errs`: `p2`, `p3` are the coefficients of `U` and `V`, `c22`, `c33`,
`c32` their covariances.  The square root of a negative number is NaN (`none`); so is, or is infinite, the ratio with `p2 = 0`. -/
noncomputable def brkErrs (p2 p3 c22 c33 c32 : ℝ) : Option ℝ :=
  let v := c33 + c22 * (p3 / p2) ^ 2 + 2 * c32 * (p3 / p2)
  if p2 = 0 then none else if v < 0 then none else some (Real.sqrt v)

/-- lm_seg.py:232-244 the errors of the two slopes from the errors of the coefficients of `x` and
`U`. -/
noncomputable def segSlopeErrs (e1 e2 : ℝ) : List ℝ := [e1, Real.sqrt (e2 ^ 2 + e1 ^ 2)]

/-! ### `VCS.fit_pspec` -/

/-- vcs.py:141-143 `freqs[1:shape // 2]`: the channel indices kept for the fit. -/
def vcsFitIndices (n : ℕ) : List ℕ := (List.range (n / 2)).drop 1

/-- vcs.py:123-147: the indices fitted once the cuts (1/pixel) are applied.  Default cuts: 0.98/n
and 1.01 times the largest frequency. -/
noncomputable def vcsFitted (n : ℕ) (low high : Option ℝ) (maxFreq : ℝ) : List ℕ :=
  let lo := low.getD (0.98 / n)
  let hi := high.getD (maxFreq * 1.01)
  (vcsFitIndices n).filter (fun i => clipFunc lo hi (some ((i : ℝ) / n)))

/-- vcs.py:157-172 candidate breaks: the spline knots without the first and last, from the largest
down, without one equal to the largest or smallest abscissa. -/
noncomputable def vcsTrim (knots : List ℝ) (mx mn : ℝ) : List ℝ :=
  let b := ((knots.drop 1).dropLast).reverse
  let b := if b.head? = some mx then b.drop 1 else b
  if b.getLast? = some mn then b.dropLast else b

/-- vcs.py:157-181 the candidates, or the point half-way between the largest and third largest
abscissa when there are none; three points or fewer raise a Warning. -/
noncomputable def vcsCandidates (x knots : List ℝ) : Py (List ℝ) := do
  let mx ← npMax x
  let mn ← npMin x
  let b := vcsTrim knots mx mn
  if x.length ≤ 3 then .error .warningRaised
  else if b.length = 0 then
    let s := x.mergeSort (fun a b => decide (a ≤ b))
    .ok [0.5 * (s.getD (x.length - 1) 0 + s.getD (x.length - 3) 0)]
  else .ok b

/-- What `breaks` is after the search: one number, or still the whole array. -/
inductive BreakArg where
  | one (b : ℝ)
  | array (l : List ℝ)

/-- vcs.py:186-200 the `while True` search.  `seg b` is the segmented fit started at `b`
(`found`: `params.size == 5`).  Returns `breaks` and the number of fits made. -/
noncomputable def vcsSearch (seg : ℝ → Py SegOut) (all : List ℝ) : List ℝ → ℕ → Py (BreakArg × ℕ)
  | [], c => .ok (.array all, c)
  | b :: rest, c => do
    let g ← seg b
    if g.found then .ok (.one b, c + 1) else vcsSearch seg all rest (c + 1)

/-- vcs.py:204-205 `np.log10(breaks)` (`none` = NaN). -/
noncomputable def breakLog10 (b : ℝ) : Option ℝ := if 0 < b then some (log10 b) else none

/-- vcs.py:204-209 the break handed to the final `Lm_Seg`: an array of two or more has no truth
value (ValueError), and a NaN break is refused (ValueError). -/
noncomputable def vcsFinalBreak (logBreak : Bool) (a : BreakArg) : Py ℝ :=
  match a with
  | .one b => if logBreak then .ok b
      else match breakLog10 b with | some v => .ok v | none => .error .valueError
  | .array [b] => if logBreak then .ok b
      else match breakLog10 b with | some v => .ok v | none => .error .valueError
  | .array _ => .error .valueError

/-- vcs.py:208-221 the final fit and the attributes `slope`, `slope_err`. -/
noncomputable def vcsFinish (seg : ℝ → Py SegOut) (bootstrap logBreak : Bool) (a : BreakArg) :
    Py (SegOut × List ℝ × List ℝ) := do
  let b ← vcsFinalBreak logBreak a
  let g ← seg b
  .ok (g, g.slopes, if bootstrap then pySlice1m1 g.boot else g.slopeErrs)

/-- vcs.py:150-221 `VCS.fit_pspec` after the points are chosen: the result and the total number of
segmented fits started. -/
noncomputable def vcsFit (seg : ℝ → Py SegOut) (bootstrap logBreak : Bool) (breaks : Option ℝ)
    (x knots : List ℝ) : Py ((SegOut × List ℝ × List ℝ) × ℕ) := do
  match breaks with
  | some b =>
    let r ← vcsFinish seg bootstrap logBreak (.one b)
    .ok (r, 1)
  | none =>
    let cand ← vcsCandidates x knots
    let (a, c) ← vcsSearch seg cand cand 0
    let r ← vcsFinish seg bootstrap logBreak a
    .ok (r, c + 1)

end TS
