import Verif.Model.EllipFit
import Verif.Model.GenField

/-! Model of `PowerSpectrum.run` and `VCA.run` with `fit_2D=True`, without beam correction or apodization:
the chain of calls from an image or a cube to the elliptical fit of its 2D power spectrum. -/

namespace TS

/-- base_pspec2.py:434-450 the starting parameters of `fit_2Dpspec` after a 1D fit: its intercept and slope,
an ellipticity of 0.5 (transformed: 0) and the angle `pi / 2`.  NaN parameters of the 1D fit (an infinite
ordinate, see `lineFit`) would give a NaN starting point, which is outside this model: an error here. -/
noncomputable def startFrom1D : Option (ℝ × ℝ) → Py EllipPar
  | some p => .ok ⟨p.1, some 0, Real.pi / 2, p.2⟩
  | none => .error .runtimeError

/-- What `run` leaves behind: the radial profile, the 1D fit and the 2D fit. -/
structure SpecRun where
  profile : PspecOut
  fit1D : Option (ℝ × ℝ)
  fit2D : Fit2D

/-- pspec.py:193-201, vca.py:199-205 the calls made by `run` once `ps` (the attribute `_ps2D`) is computed:
`compute_radial_pspec`, `fit_pspec` (binned, unweighted, no break) and `fit_2Dpspec`, with the same limits;
the default upper limit of the 2D fit is the largest bin centre (base_pspec2.py:417-418). -/
noncomputable def runSpectrum (lsq : List (ℝ × ℝ × ℝ) → ℝ × ℝ) (lm : LevMar) (perms : ℕ → ℕ → ℕ) (o : EllipOpts)
    (a : PspecArgs) (low high : Option ℝ) (ps : Arr2 ℝ) : Py SpecRun := do
  let ps2D := (ps2DProperty ps).map some
  let out ← pspecFn ps2D { a with returnStddev := true }
  let bins : List PsBin := (List.range out.binCents.n).map (fun k : ℕ => ⟨out.binCents.get k, out.ps1D.get k, none⟩)
  let fit ← fitPspecLine lsq false low high ps2D.n ps2D.m bins
  let p0 ← startFrom1D fit
  let fmax ← npMax (bins.map (·.freq))
  let fit2 ← fit2Dpspec lm perms o p0 low high fmax out.azim false ps2D
  return ⟨out, fit, fit2⟩

/-- pspec.py:38-216 `PowerSpectrum(img).run(fit_2D=True)`: no weights, beam or window. -/
noncomputable def powerSpectrum2D (lsq : List (ℝ × ℝ × ℝ) → ℝ × ℝ) (lm : LevMar) (perms : ℕ → ℕ → ℕ) (o : EllipOpts)
    (a : PspecArgs) (low high : Option ℝ) (img : Arr2 (Option ℝ)) : Py SpecRun := do
  let st ← powerSpectrumInit img none
  let ps ← computePspec st.weighted none
  runSpectrum lsq lm perms o a low high ps

/-- vca.py:46-221 `VCA(cube).run(fit_2D=True)`: no channel width, beam or window; NaN voxels become 0
(vca.py:62-65). -/
noncomputable def vca2D (lsq : List (ℝ × ℝ × ℝ) → ℝ × ℝ) (lm : LevMar) (perms : ℕ → ℕ → ℕ) (o : EllipOpts)
    (a : PspecArgs) (low high : Option ℝ) (cube : Arr3 (Option ℝ)) : Py SpecRun := do
  let ps ← vcaComputePspec (fillNan3 0 cube) none
  runSpectrum lsq lm perms o a low high ps

end TS
