import Verif.Model.PSpec
import Verif.Np.Reduce

/-! Model of turbustat/statistics/mvc/mvc.py (constructor and 2D spectrum). -/

namespace TS
open Finset

/-- The three maps of an `MVC` after construction. -/
structure MvcState where
  centroid : Arr2 (Option ℝ)
  moment0 : Arr2 (Option ℝ)
  linewidth : Arr2 (Option ℝ)

/-- mvc.py:70-94 `MVC.__init__`: equal shapes, then zero where *all three* maps are NaN. -/
def mvcMaps (c m0 lw : Arr2 (Option ℝ)) : Py MvcState :=
  if ¬ (c.n = m0.n ∧ c.m = m0.m) ∨ ¬ (c.n = lw.n ∧ c.m = lw.m) then .error .indexError
  else
    let isnan := fun i j => (c.get i j).isNone && (m0.get i j).isNone && (lw.get i j).isNone
    let fill := fun (a : Arr2 (Option ℝ)) => (⟨a.n, a.m, fun i j => if isnan i j then some 0 else a.get i j⟩ : Arr2 (Option ℝ))
    .ok ⟨fill c, fill m0, fill lw⟩

open Classical in
/-- `rfft_to_fft` of an image that may hold NaN: one NaN spoils every frequency. -/
noncomputable def rfftToFftO (a : Arr2 (Option ℝ)) : Py (Arr2 (Option ℝ)) := do
  match ← rfftToFft (.d2 (fillNan 0 a)) with
  | .d2 f => return f.map (fun x => if ∃ i < a.n, ∃ j < a.m, a.get i j = none then none else some x)
  | _ => .error .typeError

/-- `np.nanmean` of a map. -/
noncomputable def Arr2.nanmean (a : Arr2 (Option ℝ)) : Option ℝ := divO (some a.nansum) (some (a.nFinite : ℝ))

/-- Value of the window at a pixel (1 without a window). -/
def winAt (w : Option (Arr2 ℝ)) (i j : ℕ) : ℝ :=
  match w with
  | none => 1
  | some w => w.get i j

/-- mvc.py:158-169 the three arrays entering the spectrum.  Line 163 multiplies only the centroid term by
the window. -/
noncomputable def mvcTerms (s : MvcState) (w : Option (Arr2 ℝ)) :
    Arr2 (Option ℝ) × Arr2 (Option ℝ) × Arr2 (Option ℝ) :=
  let win := winAt w
  let sh := fun (g : ℕ → ℕ → Option ℝ) => (⟨s.centroid.n, s.centroid.m, g⟩ : Arr2 (Option ℝ))
  (sh (fun i j => mulO (mulO (s.centroid.get i j) (s.moment0.get i j)) (some (win i j))),
   sh (fun i j => addO (sqO (s.linewidth.get i j)) (mulO (sqO (s.centroid.get i j)) (some (win i j)))),
   sh (fun i j => mulO (s.moment0.get i j) (some (win i j))))

/-- mvc.py:171-192 the spectrum of the three arrays.  `rfft_to_fft` returns *moduli*, so line 187
subtracts moduli. -/
noncomputable def mvcSpectrum (t : Arr2 (Option ℝ) × Arr2 (Option ℝ) × Arr2 (Option ℝ)) : Py (Arr2 (Option ℝ)) := do
  let term1 ← rfftToFftO t.1
  let fftMom0 ← rfftToFftO t.2.2
  let term2 := t.2.1.nanmean
  let f : Arr2 (Option ℝ) := ⟨term1.n, term1.m, fun i j => subO (term1.get i j) (mulO term2 (fftMom0.get i j))⟩
  return f.fftshift.map (fun x => x.map (fun v => |v| ^ 2))

/-- mvc.py:158-161 the apodizing window. -/
noncomputable def mvcWindow (s : MvcState) : Option ApodArgs → Py (Option (Arr2 ℝ))
  | some k => (apodizingKernel k.kernelType k.alpha k.beta [s.centroid.n, s.centroid.m]).map some
  | none => .ok none

/-- mvc.py:119-198 `MVC.compute_pspec` without beam correction (that of the power spectrum, C02). -/
noncomputable def mvcPspec (s : MvcState) (apod : Option ApodArgs) : Py (Arr2 (Option ℝ)) := do
  let w ← mvcWindow s apod
  mvcSpectrum (mvcTerms s w)

end TS
