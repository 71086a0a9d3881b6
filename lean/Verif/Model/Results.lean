import Verif.Model.HighMoments
import Verif.Model.Pca

/-! Model of how the statistics keep settings and results: assigning a setting, computing, fitting, and reading, in any order.  The
computation at one lag, scale or radius is a parameter (it is modelled elsewhere); what matters here is which setting a stored result
belongs to, and what a call that raises leaves behind. -/

namespace TS

/-- An entry of an array made by `np.empty` or `np.zeros`: not written yet, or a value. -/
inductive Slot (α : Type*) where
  | unset
  | val (a : α)

/-- A loop `for i, v in enumerate(vs): out[i] = f(v)` over a new array `out` of the same length: the array when the loop ends or raises,
and the exception. -/
def fillSlots {α β : Type*} (f : α → Py β) : List α → List (Slot β) × Option PyErr
  | [] => ([], none)
  | v :: vs =>
    match f v with
    | .error e => (List.replicate (vs.length + 1) .unset, some e)
    | .ok b => (.val b :: (fillSlots f vs).1, (fillSlots f vs).2)

/-- `np.logical_and` of two vectors: equal lengths, or one of them of length 1. -/
def npAnd (a b : List Bool) : Py (List Bool) :=
  if a.length = b.length then .ok (List.zipWith (· && ·) a b)
  else match a, b with
    | [x], _ => .ok (b.map (x && ·))
    | _, [y] => .ok (a.map (· && y))
    | _, _ => .error .valueError

/-- `a[mask]`: a mask of another length raises IndexError. -/
def npMask {α : Type*} (a : List α) (m : List Bool) : Py (List α) :=
  if a.length = m.length then .ok (((a.zip m).filter fun p => p.2).map fun p => p.1) else .error .indexError

/-- The two statistics with a curve over lags or scales. -/
inductive CurveKind where
  | deltavar | wavelet

/-- The numbers taken as pixels: delta_variance.py:184 and 317 `self.lags.value`, wavelet_transform.py:169 and 255
`self._to_pixel(self.scales)`. -/
def curvePixels (k : CurveKind) (l : LagInput) : List ℝ :=
  match k, l with
  | .deltavar, .quantity v _ => v
  | .wavelet, .quantity v f => v.map (· * f)
  | _, _ => []

/-- The attributes of a `DeltaVariance` or `Wavelet` object: `lags` or `scales`; `weights` (delta-variance only); `delta_var` and
`delta_var_error`, or `values` and `stddev`; `_Wf` (outer `none`: no attribute, inner `none`: None); and the points of the last fit.
`_convolved_arrays` (delta_variance.py:89-90, 249-251) is not modelled: nothing reads more of it than its length, for a warning. -/
structure CurveObj (W Img : Type*) where
  kind : CurveKind
  side : ℕ
  lags : LagInput
  weights : W
  curve : Option (List (Slot (Option (ℝ × ℝ)))) := none
  images : Option (Option (List (Slot Img))) := none
  fitted : Option (List (ℝ × Slot (Option (ℝ × ℝ)))) := none

/-- What can be done with such an object.  `shapeOk`: the new weights have the shape of the image.  `opt` are the remaining options of the
computation. -/
inductive CurveCmd (W Opt : Type*) where
  | setLags (l : LagInput)
  | setWeights (w : W) (shapeOk : Bool)
  | compute (opt : Opt) (keep : Bool)
  | fit (xlow xhigh : Option ℝ)

section curve
variable {W Opt Img : Type*} (stat : W → Opt → ℝ → Py (Option (ℝ × ℝ) × Img))

/-- delta_variance.py:178-263 `compute_deltavar`, wavelet_transform.py:148-198 `compute_transform`: new arrays, then one lag after the
other. -/
def curveCompute (o : CurveObj W Img) (opt : Opt) (keep : Bool) : CurveObj W Img × Option PyErr :=
  let r := fillSlots (stat o.weights opt) (curvePixels o.kind o.lags)
  ({ o with
      curve := some (r.1.map fun s => match s with | .unset => .unset | .val p => .val p.1)
      images := match o.kind with
        | .deltavar => o.images
        | .wavelet => some (if keep then some (r.1.map fun s => match s with | .unset => .unset | .val p => .val p.2) else none) },
   r.2)

/-- delta_variance.py:320-340, wavelet_transform.py:267-287 the two masks of the limits, in pixels.  A limit that is given is compared
with the lags; one that is not gives a mask of the length of the values. -/
noncomputable def curveMask (lags : List ℝ) (n : ℕ) (xlow xhigh : Option ℝ) : Py (List Bool) :=
  npAnd (match xlow with
      | some a => lags.map fun x => decide (log10 a ≤ log10 x)
      | none => List.replicate n true)
    (match xhigh with
      | some b => lags.map fun x => decide (log10 x ≤ log10 b)
      | none => List.replicate n true)

/-- delta_variance.py:317-345, wavelet_transform.py:255-293 the points that are fitted, as pairs of lag and value; values that were never
computed raise AttributeError.  (The fit itself: Model/BreakFit.lean.) -/
noncomputable def curvePoints (o : CurveObj W Img) (xlow xhigh : Option ℝ) : Py (List (ℝ × Slot (Option (ℝ × ℝ)))) :=
  match o.curve with
  | none => .error .attributeError
  | some c => do
    let m ← curveMask (curvePixels o.kind o.lags) c.length xlow xhigh
    let y ← npMask c m
    let x ← npMask (curvePixels o.kind o.lags) m
    return x.zip y

/-- One operation: the object afterwards, and the exception if it raises.  Setters: delta_variance.py:99-135,
wavelet_transform.py:82-110. -/
noncomputable def curveStep (o : CurveObj W Img) : CurveCmd W Opt → CurveObj W Img × Option PyErr
  | .setLags l =>
    match checkLags o.side l with
    | .ok _ => ({ o with lags := l }, none)
    | .error e => (o, some e)
  | .setWeights w shapeOk => if shapeOk then ({ o with weights := w }, none) else (o, some .valueError)
  | .compute opt keep => curveCompute stat o opt keep
  | .fit xlow xhigh =>
    match curvePoints o xlow xhigh with
    | .ok p => ({ o with fitted := some p }, none)
    | .error e => (o, some e)

/-- A program: exceptions are caught by the caller. -/
noncomputable def curveRun (o : CurveObj W Img) (cs : List (CurveCmd W Opt)) : CurveObj W Img :=
  cs.foldl (fun o c => (curveStep stat o c).1) o

end curve

/-- delta_variance.py:265-277 `convolve_arrays` and `convolve_weights`: after the warning they return `self._convolve_arrays`, a name
that nothing assigns (the arrays are in `_convolved_arrays`).  wavelet_transform.py:200-210 `Wf`. -/
def curveImages {W Img : Type*} (o : CurveObj W Img) : Py (Option (List (Slot Img))) :=
  match o.kind with
  | .deltavar => .error .attributeError
  | .wavelet => match o.images with
    | none => .error .attributeError
    | some i => .ok i

/-- The attributes of a `Tsallis` object: `lags`, `lag_distribs`, and the rows of `tsallis_params`, `tsallis_stderrs` and
`tsallis_chisq`. -/
structure TsObj (D R : Type*) where
  side : ℕ
  lags : LagInput
  dists : Option (List (Slot D)) := none
  rows : Option (List (Slot R)) := none

/-- The operations of a `Tsallis` object. -/
inductive TsCmd (Opt : Type*) where
  | setLags (l : LagInput)
  | make (opt : Opt)
  | fit (opt : Opt)

section tsallis
variable {Opt D R : Type*} (dist : Opt → ℝ → Py D) (fit1 : Opt → Slot D → Py R)

/-- tsallis.py:85-144 `make_tsallis`. -/
def tsMake (o : TsObj D R) (opt : Opt) : TsObj D R × Option PyErr :=
  let r := fillSlots (dist opt) (curvePixels .wavelet o.lags)
  ({ o with dists := some r.1 }, r.2)

/-- tsallis.py:182-198 the loop of `fit_tsallis`: a row for every distribution, written into arrays of `n` rows; a row too many raises
IndexError. -/
def tsFitRows (opt : Opt) : ℕ → List (Slot D) → List (Slot R) × Option PyErr
  | n, [] => (List.replicate n .unset, none)
  | n, d :: ds =>
    match fit1 opt d with
    | .error e => (List.replicate n .unset, some e)
    | .ok r =>
      match n with
      | 0 => ([], some .indexError)
      | n + 1 => (.val r :: (tsFitRows opt n ds).1, (tsFitRows opt n ds).2)

/-- tsallis.py:161-198 `fit_tsallis`: `len(self.lags)` rows. -/
def tsFit (o : TsObj D R) (opt : Opt) : TsObj D R × Option PyErr :=
  match o.dists with
  | none => (o, some .runtimeError)
  | some ds =>
    let r := tsFitRows fit1 opt (curvePixels .wavelet o.lags).length ds
    ({ o with rows := some r.1 }, r.2)

/-- One operation of a `Tsallis` object; the setter is tsallis.py:57-83. -/
noncomputable def tsStep (o : TsObj D R) : TsCmd Opt → TsObj D R × Option PyErr
  | .setLags l =>
    match checkLags o.side l with
    | .ok _ => ({ o with lags := l }, none)
    | .error e => (o, some e)
  | .make opt => tsMake dist o opt
  | .fit opt => tsFit fit1 o opt

/-- A program. -/
noncomputable def tsRun (o : TsObj D R) (cs : List (TsCmd Opt)) : TsObj D R := cs.foldl (fun o c => (tsStep dist fit1 o c).1) o

end tsallis

/-- tsallis.py:221-234 `tsallis_table`, a row for each lag (here in pixels); columns of different lengths raise ValueError. -/
def tsTable {D R : Type*} (o : TsObj D R) : Py (List (ℝ × Slot R)) :=
  match o.rows with
  | none => .error .attributeError
  | some r => if r.length = (curvePixels .wavelet o.lags).length then .ok ((curvePixels .wavelet o.lags).zip r) else .error .valueError

/-- The attributes of a `StatMoments` object: `radius`; the four arrays (`unset` after `np.empty`); the histograms. -/
structure StatMomObj (A H : Type*) where
  side : ℕ
  radius : LagInput
  maps : Option (Slot A) := none
  hists : Option H := none

/-- highstatmoments.py:122-186 `compute_spatial_distrib`: the arrays are replaced before a new radius is checked. -/
noncomputable def momCompute {A H : Type*} (moments : ℝ → LagInput → A) (o : StatMomObj A H) (radius : Option LagInput) (minFrac : ℝ) :
    StatMomObj A H × Option PyErr :=
  if minFrac ≤ 0 ∨ 1 < minFrac then (o, some .valueError)
  else match radius with
    | none => ({ o with maps := some (.val (moments minFrac o.radius)) }, none)
    | some r => match checkRadius o.side r with
      | .error e => ({ o with maps := some .unset }, some e)
      | .ok _ => ({ o with radius := r, maps := some (.val (moments minFrac r)) }, none)

/-- highstatmoments.py:244-297 `make_spatial_histograms`. -/
def momHists {A H : Type*} (hist : Slot A → Py H) (o : StatMomObj A H) : StatMomObj A H × Option PyErr :=
  match o.maps with
  | none => (o, some .attributeError)
  | some m => match hist m with
    | .error e => (o, some e)
    | .ok h => ({ o with hists := some h }, none)

/-- The attributes of a `Genus` object: the radii, the curves (and means and deviations) of the smoothed images, and the images. -/
structure GenObj (Img C : Type*) where
  radii : List ℝ
  curves : Option (List (Slot C)) := none
  images : Option (List Img) := none

/-- genus.py:267-340 `make_genus_curve`: the list of images is new only when images are kept. -/
def genMake {Img C : Type*} (smooth : ℝ → Py Img) (curve : Img → C) (keep : Bool) (o : GenObj Img C) : GenObj Img C × Option PyErr :=
  let r := fillSlots (fun w => (smooth w).map fun i => (i, curve i)) o.radii
  ({ o with
      curves := some (r.1.map fun s => match s with | .unset => .unset | .val p => .val p.2)
      images := if keep then some (r.1.filterMap fun s => match s with | .unset => none | .val p => some p.1) else o.images },
   r.2)

/-- genus.py:205-214 `smoothed_images`. -/
def genImages {Img C : Type*} (o : GenObj Img C) : Py (List Img) :=
  match o.images with
  | none => .error .valueError
  | some i => .ok i

/-- pca.py:73-78 the `n_eigs` setter on an object with results. -/
def pcaSetN (st : PcaState) (v : ℕ) : PcaState × Option PyErr :=
  match nEigsSetter v with
  | .ok k => ({ st with nEigs := k }, none)
  | .error e => (st, some e)

end TS
