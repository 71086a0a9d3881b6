import Verif.Model.Genus
import Verif.Model.StatsUtils
import Mathlib.Data.List.Sort

/-! Model of the construction of `Genus` and of `Genus_Distance` (turbustat/statistics/genus/genus.py:75-201, 525-623).  The smoothing
(astropy's `convolve_fft` with a Gaussian of the given radius) and the spline (`scipy.interpolate.InterpolatedUnivariateSpline`, `k=3`)
are parameters. -/

namespace TS
open Finset

/-- A brightness unit: its physical kind (0: dimensionless) and its size in the base unit of that kind. -/
structure BUnit where
  dim : ℕ
  fac : ℝ

/-- A brightness value, plain or with a unit. -/
structure Bright where
  val : ℝ
  unit : Option BUnit

/-- All pixels in order (`np.ravel`). -/
def flat2 {α : Type*} (a : Arr2 α) : List α := (List.range a.n).flatMap fun i => (List.range a.m).map fun j => a.get i j

/-- `np.nanpercentile(x, q)` with linear interpolation between order statistics; outside 0…100 it raises ValueError.  Simplified: with no
valid number numpy gives NaN, an error here. -/
noncomputable def nanpercentile (x : List (Option ℝ)) (q : ℝ) : Py ℝ :=
  if q < 0 ∨ 100 < q then .error .valueError
  else
    let s := (validVals x).insertionSort (· ≤ ·)
    if s = [] then .error .valueError
    else
      let h := q / 100 * ((s.length : ℝ) - 1)
      let i := ⌊h⌋₊
      .ok (s.getD i 0 + (h - i) * (s.getD (min (i + 1) (s.length - 1)) 0 - s.getD i 0))

/-- A NaN result of `nanmin`/`nanmax` is an error here (see `nanpercentile`). -/
def orNan (v : Option ℝ) : Py ℝ :=
  match v with
  | some x => .ok x
  | none => .error .valueError

/-- genus.py:115-118 lower limit when `min_value` is not given. -/
noncomputable def defaultMin (x : List (Option ℝ)) (pct : ℝ) : Py ℝ := if pct = 0 then orNan (nanmin x) else nanpercentile x pct

/-- genus.py:136-139 upper limit when `max_value` is not given. -/
noncomputable def defaultMax (x : List (Option ℝ)) (pct : ℝ) : Py ℝ := if pct = 100 then orNan (nanmax x) else nanpercentile x pct

/-- `.to(unit)` after the check that the units are equivalent (genus.py:128-132, 149-153). -/
noncomputable def toUnit (u d : BUnit) (v : ℝ) : Py Bright :=
  if u.dim ≠ d.dim then .error .unitsError else .ok ⟨v * u.fac / d.fac, some d⟩

/-- genus.py:123-132 the check of the lower limit. -/
noncomputable def checkMin (du : Option BUnit) (b : Bright) : Py Bright :=
  match du, b.unit with
  | none, _ => .ok b
  | some _, none => .error .typeError
  | some d, some u => toUnit u d b.val

/-- genus.py:144-153 the check of the upper limit: only made when the limit has a unit. -/
noncomputable def checkMax (du : Option BUnit) (b : Bright) : Py Bright :=
  match du, b.unit with
  | some d, some u => toUnit u d b.val
  | _, _ => .ok b

/-- A plain number next to a quantity of unit `u` (astropy): zero goes with every unit, other numbers only with dimensionless ones. -/
noncomputable def plainIn (u : BUnit) (v : ℝ) : Py ℝ :=
  if v = 0 then .ok 0 else if u.dim = 0 then .ok (v / u.fac) else .error .unitConversionError

/-- genus.py:155 `np.linspace(min_value, max_value, numpts)` for plain numbers and quantities. -/
noncomputable def brightLinspace (a b : Bright) (num : ℕ) : Py (Arr1 ℝ × Option BUnit) :=
  match a.unit, b.unit with
  | none, none => .ok (linspace a.val b.val num, none)
  | some u, none => (plainIn u b.val).map fun y => (linspace a.val y num, some u)
  | none, some u => (plainIn u a.val).map fun y => (linspace y b.val num, some u)
  | some u, some v =>
    if v.dim ≠ u.dim then .error .unitConversionError
    else .ok (linspace a.val (b.val * v.fac / u.fac) num, some u)

/-- The options for the range of thresholds. -/
structure ThreshArgs where
  minValue : Option Bright := none
  maxValue : Option Bright := none
  lowPct : ℝ := 0
  highPct : ℝ := 100
  numpts : ℕ := 100

/-- genus.py:113-121 the lower limit before the check. -/
noncomputable def rawMin (x : List (Option ℝ)) (du : Option BUnit) (o : ThreshArgs) : Py Bright :=
  match o.minValue with
  | some b => .ok b
  | none => (defaultMin x o.lowPct).map fun v => ⟨v, du⟩

/-- genus.py:134-142 the upper limit before the check. -/
noncomputable def rawMax (x : List (Option ℝ)) (du : Option BUnit) (o : ThreshArgs) : Py Bright :=
  match o.maxValue with
  | some b => .ok b
  | none => (defaultMax x o.highPct).map fun v => ⟨v, du⟩

/-- genus.py:111-155 the thresholds without `thresholds`. -/
noncomputable def rangeThresholds (x : List (Option ℝ)) (du : Option BUnit) (o : ThreshArgs) : Py (Arr1 ℝ × Option BUnit) := do
  let a ← rawMin x du o
  let a ← checkMin du a
  let b ← rawMax x du o
  let b ← checkMax du b
  brightLinspace a b o.numpts

/-- genus.py:94-109 thresholds given by the user. -/
noncomputable def givenThresholds (du : Option BUnit) (t : Arr1 ℝ) (tu : Option BUnit) : Py (Arr1 ℝ × Option BUnit) :=
  match du, tu with
  | none, _ => .ok (t, tu)
  | some _, none => .error .typeError
  | some d, some u => if u.dim ≠ d.dim then .error .unitsError else .ok (t.map fun v => v * u.fac / d.fac, some d)

/-- The forms of `smoothing_radii`: not given, an array of pixels, a list, a quantity (with what `_to_pixel` makes of it). -/
inductive RadiiArg where
  | default
  | array (v : List ℝ)
  | list (v : List ℝ)
  | quantity (pix : Py (List ℝ))

/-- genus.py:157-168 and the setter 184-201.  `list < 1.0` raises TypeError. -/
noncomputable def initRadii (enable : Bool) (minSide : ℕ) (r : RadiiArg) : Py (List (Option ℝ)) :=
  if !enable then .ok [none]
  else
    let set (v : List ℝ) : Py (List (Option ℝ)) :=
      match setSmoothingRadii none minSide v with
      | (_, some e) => .error e
      | (r, none) => .ok ((r.getD []).map some)
    match r with
    | .default => set [1]
    | .array v => set v
    | .list _ => .error .typeError
    | .quantity p => match p with
      | .ok v => set v
      | .error e => .error e

/-- What a `Genus` object holds. -/
structure GenusObj where
  data : Arr2 (Option ℝ)
  thresholds : Arr1 ℝ
  unit : Option BUnit
  radii : List (Option ℝ)

/-- genus.py:75-168 `Genus.__init__`. -/
noncomputable def genusInit (data : Arr2 (Option ℝ)) (du : Option BUnit) (o : ThreshArgs) (given : Option (Arr1 ℝ × Option BUnit))
    (enable : Bool) (r : RadiiArg) : Py GenusObj := do
  let t ← match given with
    | some t => givenThresholds du t.1 t.2
    | none => rangeThresholds (flat2 data) du o
  let rad ← initRadii enable (min data.n data.m) r
  return ⟨data, t.1, t.2, rad⟩

/-- The options of `make_genus_curve` that matter here (a beam is taken into account in `minSize`). -/
structure CurveArgs where
  removal : Bool := true
  minSize : ℤ := 4
  conn : ℕ := 2

/-- genus.py:288-340 the curves of an object. -/
noncomputable def GenusObj.curves (g : GenusObj) (smooth : ℝ → Arr2 (Option ℝ) → Arr2 (Option ℝ)) (c : CurveArgs) : List (List ℤ) :=
  genusStats (g.radii.map fun r => match r with
    | none => g.data
    | some w => smooth w g.data) ((List.range g.thresholds.n).map g.thresholds.get) c.removal c.minSize c.conn

/-- genus.py:552-553 `standardize` on an image. -/
noncomputable def standardizeImg (a : Arr2 (Option ℝ)) : Arr2 (Option ℝ) :=
  a.map fun v => divO (subO v (nanmean (flat2 a))) (nanstd (flat2 a))

/-- An option of `Genus_Distance` given once for both images or as a list. -/
inductive PairArg (α : Type) where
  | both (a : α)
  | each (l : List α)

/-- genus.py:532-542 the value for image `k`. -/
def PairArg.get {α : Type} (p : PairArg α) (k : ℕ) : Py α :=
  match p with
  | .both a => .ok a
  | .each l => match l[k]? with
    | some a => .ok a
    | none => .error .indexError

/-- The options of `Genus_Distance` (genus.py:525-528). -/
structure GenusDistArgs where
  radii : RadiiArg := .default
  numpts : ℕ := 100
  minValue : PairArg (Option Bright) := .both none
  maxValue : PairArg (Option Bright) := .both none
  lowPct : PairArg ℝ := .both 0
  highPct : PairArg ℝ := .both 100

/-- genus.py:555-565 the object of image `k` (a plain array without header): `numpts` is not passed on. -/
noncomputable def distGenus (img : Arr2 (Option ℝ)) (o : GenusDistArgs) (k : ℕ) : Py GenusObj := do
  let mn ← o.minValue.get k
  let mx ← o.maxValue.get k
  let lo ← o.lowPct.get k
  let hi ← o.highPct.get k
  genusInit (standardizeImg img) none { minValue := mn, maxValue := mx, lowPct := lo, highPct := hi } none true o.radii

/-- What the distance uses of a finished `Genus` object. -/
structure GenusCurve where
  thr : Arr1 ℝ
  vals : List ℤ
  size : ℕ

/-- genus.py:594-613 thresholds, `genus_stats[0, :]`, `data.size`. -/
noncomputable def GenusObj.curve (g : GenusObj) (smooth : ℝ → Arr2 (Option ℝ) → Arr2 (Option ℝ)) (c : CurveArgs) : GenusCurve :=
  ⟨g.thresholds, (g.curves smooth c).headD [], g.data.n * g.data.m⟩

/-- A spline routine: abscissae and ordinates to a function, or an exception. -/
abbrev Spline := List ℝ → List ℝ → Py (ℝ → ℝ)

/-- genus.py:594-606 the points at which the curves are compared; `np.min` of nothing raises ValueError. -/
noncomputable def genusPoints (t1 t2 : Arr1 ℝ) : Py (Arr1 ℝ) := do
  let a1 ← orNan (minO ((List.range t1.n).map t1.get))
  let a2 ← orNan (minO ((List.range t2.n).map t2.get))
  let b1 ← orNan (maxO ((List.range t1.n).map t1.get))
  let b2 ← orNan (maxO ((List.range t2.n).map t2.get))
  return linspace (max a1 a2) (min b1 b2) (2 * ((t1.n + t2.n) / 2))

/-- genus.py:608-613 a curve divided by an area. -/
noncomputable def GenusCurve.perArea (g : GenusCurve) (area : ℝ) : List ℝ := g.vals.map fun v : ℤ => (v : ℝ) / area

/-- `np.linalg.norm(f(points) - g(points))`. -/
noncomputable def normAt (p : Arr1 ℝ) (f g : ℝ → ℝ) : ℝ := Real.sqrt (∑ k ∈ range p.n, (f (p.get k) - g (p.get k)) ^ 2)

/-- genus.py:594-623 `distance_metric`. -/
noncomputable def genusDist (spl : Spline) (scale : ℝ) (g1 g2 : GenusCurve) : Py ℝ := do
  let p ← genusPoints g1.thr g2.thr
  let f1 ← spl ((List.range g1.thr.n).map g1.thr.get) (g1.perArea ((g1.size : ℝ) / scale))
  let f2 ← spl ((List.range g2.thr.n).map g2.thr.get) (g2.perArea (g2.size : ℝ))
  return normAt p f1 f2

/-- genus.py:525-623 `Genus_Distance(img1, img2, ...).distance_metric().distance` for images with celestial headers. -/
noncomputable def genusDistance (spl : Spline) (smooth : ℝ → Arr2 (Option ℝ) → Arr2 (Option ℝ)) (img1 img2 : Arr2 (Option ℝ))
    (w1 w2 : WcsScales) (tol : ℝ) (o : GenusDistArgs) (c1 c2 : CurveArgs) : Py ℝ := do
  let g1 ← distGenus img1 o 0
  let g2 ← distGenus img2 o 1
  let scale ← commonScale w1 w2 tol
  genusDist spl scale (g1.curve smooth c1) (g2.curve smooth c2)

end TS
