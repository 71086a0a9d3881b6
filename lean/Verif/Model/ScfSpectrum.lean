import Verif.Model.Scf
import Verif.Model.Psds

/-! Model of the history of an `SCF` object (turbustat/statistics/scf/scf.py): its lags, surface and
spectrum, and of `SCF.fitted_model`. -/

namespace TS
open Finset

/-- The attributes of an `SCF` object used here: `roll_lags` as numbers in their own unit, the pixels per unit
(`_to_pixel` is a multiplication), `size`, `scf_surface` (`none` = None), and what `compute_spectrum` stores. -/
structure ScfObj where
  rollLags : Arr1 ℝ
  pixPerUnit : ℝ
  size : ℕ
  surface : Option (Arr2 (Option ℝ)) := none
  lags : Arr1 ℝ := ⟨0, fun _ => 0⟩
  spectrum : Arr1 (Option ℝ) := ⟨0, fun _ => none⟩
  azim : Option (Arr2 Bool) := none

/-- scf.py:57-97 `SCF.__init__`: given lags (in a unit worth `pixPerUnit` pixels) or the default ones (in
pixels). -/
def scfObjInit (size : ℕ) (given : Option (Arr1 ℝ × ℝ)) : ScfObj :=
  match given with
  | none =>
    let l := (scfDefaultLags size).map (fun k : ℤ => (k : ℝ))
    { rollLags := l, pixPerUnit := 1, size := l.n }
  | some (l, u) =>
    let l := scfGivenLags l
    { rollLags := l, pixPerUnit := u, size := l.n }

/-- scf.py:107-121 the `roll_lags` setter: only the lags change. -/
def ScfObj.setLags (o : ScfObj) (l : Arr1 ℝ) (u : ℝ) : ScfObj := { o with rollLags := l, pixPerUnit := u }

/-- scf.py:171 the lags in pixels. -/
def ScfObj.pixLags (o : ScfObj) : Arr1 ℝ := o.rollLags.map (fun x => o.pixPerUnit * x)

/-- scf.py:178-240 one pass of the loop writing into an array whose shape is `size`, whatever the number of
lags. -/
noncomputable def scfStepIn (boundary : String) (data : Arr3 (Option ℝ)) (lags : Arr1 ℝ)
    (s : Arr2 (Option ℝ)) (n : ℕ) : Py (Arr2 (Option ℝ)) := do
  let s' ← scfStep boundary data lags s n
  if n % lags.n < s.n ∧ n / lags.n < s.m then .ok s' else .error .indexError

/-- scf.py:165-240 the surface, an array of shape `(size, size)`. -/
noncomputable def scfSurfaceIn (boundary : String) (size : ℕ) (data : Arr3 (Option ℝ)) (lags : Arr1 ℝ) :
    Py (Arr2 (Option ℝ)) :=
  if boundary = "continuous" ∨ boundary = "cut" then
    (List.range (lags.n * lags.n)).foldlM (scfStepIn boundary data lags) ⟨size, size, fun _ _ => some 0⟩
  else .error .valueError

/-- scf.py:151-242 `compute_surface`. -/
noncomputable def ScfObj.computeSurface (o : ScfObj) (boundary : String) (data : Arr3 (Option ℝ)) : Py ScfObj := do
  let s ← scfSurfaceIn boundary o.size data o.pixLags
  return { o with surface := some s }

/-- The keywords of `compute_spectrum` (those of `pspec`); the outer `Option` of `theta0` tells whether the
keyword was written. -/
structure ScfSpecKw where
  nbins : Option ℕ := none
  binsize : ℝ := 1
  maxBin : Option ℝ := none
  minBin : Option ℝ := none
  theta0 : Option (Option ℝ) := none
  deltaTheta : Option ℝ := none
  logspacing : Option Bool := none

/-- scf.py:261-272 what is handed to `pspec`. -/
def ScfSpecKw.args (k : ScfSpecKw) : PspecArgs :=
  { nbins := k.nbins, returnStddev := true, binsize := k.binsize, logspacing := false, maxBin := k.maxBin,
    minBin := k.minBin, returnFreqs := false, theta0 := k.theta0.join, deltaTheta := k.deltaTheta }

/-- scf.py:274-280 unpacking: four values are expected when `theta_0` was written, but `pspec` returns the mask
only when it is not None. -/
def scfUnpack (k : ScfSpecKw) (out : PspecOut) : Py PspecOut :=
  if k.theta0.isSome ∧ out.azim = none then .error .valueError else .ok out

/-- scf.py:282 the spacing used for the lags; `roll_lags[1]` of a single lag raises IndexError. -/
noncomputable def ScfObj.lagDiff (o : ScfObj) : Py ℝ :=
  if o.rollLags.n < 2 then .error .indexError else .ok |o.rollLags.get 1 - o.rollLags.get 0|

/-- scf.py:257-259 the surface, computed with the default boundary when there is none. -/
noncomputable def ScfObj.ensureSurface (o : ScfObj) (data : Arr3 (Option ℝ)) : Py ScfObj :=
  match o.surface with
  | none => o.computeSurface "continuous" data
  | some _ => .ok o

/-- scf.py:245-284 `compute_spectrum`. -/
noncomputable def ScfObj.computeSpectrum (o : ScfObj) (data : Arr3 (Option ℝ)) (k : ScfSpecKw) : Py ScfObj := do
  let o ← o.ensureSurface data
  let s := o.surface.getD ⟨0, 0, fun _ _ => none⟩
  let out ← pspecFn s k.args
  let out ← scfUnpack k out
  let d ← o.lagDiff
  return { o with lags := out.binCents.map (fun c => c * d), spectrum := out.ps1D, azim := out.azim }

/-- scf.py:403-428 `fitted_model` for a fit with intercept `a` and slope `b`. -/
noncomputable def scfFittedModel (a b pixPerUnit x : ℝ) : ℝ := (10 : ℝ) ^ (a + b * log10 (pixPerUnit * x))

end TS
