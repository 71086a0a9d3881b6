import Verif.Model.Ellipse

/-!
Model of the spatial widths of `turbustat/statistics/pca/pca.py` (`find_spatial_widths`, `spatial_width`), of `WidthEstimate2D` in
`turbustat/statistics/pca/width_estimate.py` with its four methods, and of `turbustat/io/try_load_beamwidth.py`.

External, and parameters of the model (`WidthExt`): the contours (`skimage.measure.find_contours`, `map_coordinates` and
`Path.contains_point`), `np.linalg.eig`, the random bootstrap of the ellipse, astropy's Levenberg-Marquardt fitter and scipy's
`LSQUnivariateSpline`.  Not modelled: the diagnostic plots.
-/

namespace TS

/-! ### The beam -/

/-- The beam keywords of a FITS header, in degrees. -/
structure BeamHeader where
  bmaj : Option ℝ
  bmin : Option ℝ
  bpa : Option ℝ

/-- try_load_beamwidth.py:15-64 `find_beam_properties`, in degrees.  `radio` is what `Beam.from_fits_header` gives, when the package is
installed; `hdr = none` is something that is no FITS header. -/
def findBeamProperties (radio : Option (Py (ℝ × ℝ × ℝ))) (hdr : Option BeamHeader) : Py (ℝ × ℝ × ℝ) :=
  match radio with
  | some r => r
  | none => match hdr with
    | none => .error .typeError
    | some h => match h.bmaj with
      | none => .error .valueError
      | some b => .ok (b, h.bmin.getD b, h.bpa.getD 0)

/-- try_load_beamwidth.py:67-77 `find_beam_width`. -/
def findBeamWidth (radio : Option (Py (ℝ × ℝ × ℝ))) (hdr : Option BeamHeader) : Py SQ := do
  let b ← findBeamProperties radio hdr
  return ⟨b.1, .angle 1⟩

/-! ### One image -/

/-- width_estimate.py:69-72 the methods. -/
inductive Width2D | contour | fit | interpolate | xinterpolate | other
  deriving DecidableEq

/-- The free parameters of the fitted surface and the errors of the two widths. -/
structure Gauss2D where
  sx : ℝ
  sy : ℝ
  theta : ℝ
  const : ℝ
  esx : ℝ
  esy : ℝ

/-- The external parts of the width estimate. -/
structure WidthExt where
  /-- contours at the 1/e level as lags, each with whether it contains the origin -/
  contours : Arr2 (Option ℝ) → List (Bool × Σ n : ℕ, Fin n → ℝ × ℝ)
  /-- `np.linalg.eig` -/
  eig : Matrix (Fin 3) (Fin 3) ℝ → Matrix (Fin 3) (Fin 3) ℝ
  /-- bootstrap errors (y, x) of the ellipse through the points -/
  boot : (Σ n : ℕ, Fin n → ℝ × ℝ) → ℝ × ℝ
  /-- parameters of the surface fitted to an image -/
  gauss : Arr2 ℝ → Gauss2D
  /-- spline through points (abscissa, ordinate) with the knots, at a place -/
  spline : List (ℝ × ℝ) → List ℝ → ℝ → ℝ

/-- width_estimate.py:82-86 `xmat`, `ymat`: the lags of a pixel. -/
noncomputable def lagMat (n m : ℕ) : Arr2 (ℝ × ℝ) := (Arr2.mk n m fun i j => (lagAxis n i, lagAxis m j)).fftshift

/-- width_estimate.py:87 `rmat`. -/
noncomputable def lagRadius (p : ℝ × ℝ) : ℝ := Real.sqrt (p.1 ^ 2 + p.2 ^ 2)

/-- width_estimate.py:134-143 `aspect`, `theta` and the stretched `rmat` of the `xinterpolate` method. -/
noncomputable def stretchedRadius (g : Gauss2D) (p : ℝ × ℝ) : ℝ :=
  let aspect := g.sy / g.sx
  Real.sqrt ((p.1 * Real.cos g.theta + p.2 * Real.sin g.theta) ^ 2 +
    (-p.1 * Real.sin g.theta + p.2 * Real.cos g.theta) ^ 2 * aspect ^ 2)

/-- width_estimate.py:406-412 the fitted surface: astropy's `Gaussian2D` about the origin plus a constant. -/
noncomputable def gaussSurface (amp : ℝ) (g : Gauss2D) (p : ℝ × ℝ) : ℝ :=
  let a := 0.5 * (Real.cos g.theta ^ 2 / g.sx ^ 2 + Real.sin g.theta ^ 2 / g.sy ^ 2)
  let b := 0.5 * (Real.sin (2 * g.theta) / g.sx ^ 2 - Real.sin (2 * g.theta) / g.sy ^ 2)
  let c := 0.5 * (Real.sin g.theta ^ 2 / g.sx ^ 2 + Real.cos g.theta ^ 2 / g.sy ^ 2)
  amp * Real.exp (-(a * p.1 ^ 2 + b * (p.1 * p.2) + c * p.2 ^ 2)) + g.const

/-- width_estimate.py:90 `zraw - noise_ACF`. -/
noncomputable def subImage (z noise : Arr2 ℝ) : Arr2 ℝ := ⟨z.n, z.m, fun i j => z.get i j - noise.get i j⟩

/-- width_estimate.py:161-162 an image divided by its maximum (a maximum of 0 leaves NaN and infinities, which have no contour; they
are written as missing). -/
noncomputable def normImage (z : Arr2 ℝ) (mx : ℝ) : Arr2 (Option ℝ) := ⟨z.n, z.m, fun i j => divO (some (z.get i j)) (some mx)⟩

/-- width_estimate.py:115-125, 144-154 the two interpolating methods: the radii against the sorted, normalised values, with a knot
at every hundredth of the values; a step of 0 is refused by the slice, NaN by the spline.  The order of `np.argsort` among equal
values is not modelled (merge sort here). -/
noncomputable def splineWidth (ext : WidthExt) (z : Arr2 ℝ) (radius : ℝ × ℝ → ℝ) : Py (Option AxisWidths) := do
  let mx ← npMax z.ravel
  let zr := (List.zip (z.ravel.map (· / mx)) ((lagMat z.n z.m).ravel.map radius)).mergeSort (fun a b => decide (a.1 ≤ b.1))
  let dz := zr.length / 100
  if dz = 0 then .error .valueError
  else if mx = 0 then .error .valueError
  else
    let knots := ((List.range zr.length).filter fun i => decide (dz ≤ i ∧ i < zr.length - dz ∧ (i - dz) % dz = 0)).map
      fun i => (zr.getD i (0, 0)).1
    let r := ext.spline zr knots (Real.exp (-1)) / Real.sqrt 2
    return some ⟨r, r, 0, 0⟩

/-- width_estimate.py:92-189 the widths of one image `z` by a method, `none` for NaN. -/
noncomputable def imageWidths (ext : WidthExt) (z : Arr2 ℝ) : Width2D → Py (Option AxisWidths)
  | .fit => .ok (some ⟨(ext.gauss z).sy, (ext.gauss z).sx, (ext.gauss z).esy, (ext.gauss z).esx⟩)
  | .interpolate => splineWidth ext z lagRadius
  | .xinterpolate => splineWidth ext z (stretchedRadius (ext.gauss z))
  | .contour => do
    let mx ← npMax z.ravel
    return ((ext.contours (normImage z mx)).find? (fun p => p.1)).bind fun p =>
      (fit2DEllipse ext.eig p.2.2).map fun w => ⟨w.1, w.2, (ext.boot p.2).1, (ext.boot p.2).2⟩
  | .other => .error .valueError

/-- width_estimate.py:19-272 `WidthEstimate2D`. -/
noncomputable def widthEstimate2D (ext : WidthExt) (imgs : List (Arr2 ℝ)) (noise : Arr2 ℝ) (method : Width2D) (brunt : Bool)
    (beam cdelt : Option SQ) : Py (List (Option ℝ × Option ℝ)) :=
  match method with
  | .other => .error .valueError
  | meth => match imgs with
    | [] => .error .indexError
    | imgs => do
      let ws ← imgs.mapM fun z => imageWidths ext (subImage z noise) meth
      finishWidths brunt beam cdelt ws

/-! ### The statistic -/

/-- pca.py:375-378 the beam: read from the header when it is needed and not given. -/
def beamFor (radio : Option (Py (ℝ × ℝ × ℝ))) (hdr : Option BeamHeader) (brunt : Bool) (beam : Option SQ) : Py (Option SQ) :=
  if brunt then
    match beam with
    | some b => .ok (some b)
    | none => (findBeamWidth radio hdr).map some
  else .ok beam

/-- pca.py:339-392 `find_spatial_widths`: widths and errors in pixels.  `cdelt` is the pixel size `_ang_size`; `noise_ACF` is called
with its default of -10.  The argument `distance` is not used. -/
noncomputable def findSpatialWidths (ext : WidthExt) (radio : Option (Py (ℝ × ℝ × ℝ))) (hdr : Option BeamHeader) (cdelt : Option SQ)
    (eps : ℝ) (cube : Arr3 (Option ℝ)) (st : PcaState) (method : Width2D) (brunt : Bool) (beam : Option SQ) (_distance : Option SQ) :
    Py (List (Option ℝ × Option ℝ)) := do
  let beam ← beamFor radio hdr brunt beam
  let ix ← eigIndices eps st.eigvals st.nEigs
  let acors ← autocorrImages (ix.map (fun q => eigImage st.meanSub cube (fun a => st.eigvecs a q)))
  let noise ← noiseAcf eps cube st (-10)
  widthEstimate2D ext acors noise method brunt beam cdelt

/-- pca.py:394-404 `spatial_width(unit)` for one of the widths. -/
noncomputable def spatialWidth (s : Spatial) (w : Option ℝ × Option ℝ) (unit : SUnit) : Py (Option SQ) :=
  match w.1 with
  | none => do
    let _ ← fromPixel s 0 unit
    return none
  | some v => do
    let q ← fromPixel s v unit
    return some q

end TS
