import Verif.Model.PSpec
import Verif.Model.Mvc

/-!
The option `beam_correct` of `PowerSpectrum.compute_pspec`, `VCA.compute_pspec` and `MVC.compute_pspec`.  The image of the beam that
radio_beam's `as_kernel` makes is external: a function of the number of rows and columns asked for.
-/

namespace TS

/-- base_pspec2.py:66-68: a beam, by its image with the given number of rows and columns.  The pixel size `_ang_size` is fixed. -/
abbrev BeamImage := ℕ → ℕ → ℕ → ℕ → ℝ

/-- base_pspec2.py:66-68 `self._beam.as_kernel(self._ang_size, y_size=rows, x_size=cols).array`. -/
def BeamImage.kernel (b : BeamImage) (rows cols : ℕ) : Arr2 ℝ := ⟨rows, cols, b rows cols⟩

/-- base_pspec2.py:58-75 `compute_beam_pspec`: AttributeError without a beam (`none` = no attribute `_beam`). -/
noncomputable def computeBeamPspec {α : Type} (beam : Option BeamImage) (ps : Arr2 α) : Py (Arr2 (Option ℝ)) :=
  match beam with
  | none => .error .attributeError
  | some b => beamPspec (b.kernel ps.n ps.m)

/-- pspec.py:115-119, vca.py:120-124, mvc.py:194-198: the correction, when asked for. -/
noncomputable def withBeam (beam : Option BeamImage) (correct : Bool) (ps : Arr2 (Option ℝ)) : Py (Arr2 (Option ℝ)) :=
  if correct then do
    let bp ← computeBeamPspec beam ps
    return ⟨ps.n, ps.m, fun i j => divO (ps.get i j) (bp.get i j)⟩
  else .ok ps

/-- pspec.py:69-119 `PowerSpectrum.compute_pspec`. -/
noncomputable def pspecFull (data : Arr2 ℝ) (apod : Option ApodArgs) (beam : Option BeamImage) (correct : Bool) :
    Py (Arr2 (Option ℝ)) := do
  let ps ← computePspec data apod
  withBeam beam correct (ps.map some)

/-- vca.py:74-124 `VCA.compute_pspec`. -/
noncomputable def vcaFull (data : Arr3 ℝ) (apod : Option ApodArgs) (beam : Option BeamImage) (correct : Bool) :
    Py (Arr2 (Option ℝ)) := do
  let ps ← vcaComputePspec data apod
  withBeam beam correct (ps.map some)

/-- mvc.py:119-198 `MVC.compute_pspec`. -/
noncomputable def mvcFull (s : MvcState) (apod : Option ApodArgs) (beam : Option BeamImage) (correct : Bool) :
    Py (Arr2 (Option ℝ)) := do
  let ps ← mvcPspec s apod
  withBeam beam correct ps

end TS
