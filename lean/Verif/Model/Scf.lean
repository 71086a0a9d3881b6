import Verif.Model.StatsUtils
import Verif.Np.Reduce

/-! Model of `turbustat/statistics/scf/scf.py`. -/

namespace TS
open Finset

/-- scf.py:67-72 the default lags and the truncation of an even number of lags: `np.arange(size) -
size // 2` for the size reduced to odd. -/
def scfDefaultLags (size : ℕ) : Arr1 ℤ :=
  let size := if size % 2 = 0 then size - 1 else size
  ⟨size, fun k => (k : ℤ) - (size / 2 : ℕ)⟩

/-- scf.py:73-87 user supplied lags: an even number of them loses the last one. -/
def scfGivenLags (lags : Arr1 ℝ) : Arr1 ℝ :=
  if lags.n % 2 = 0 then lags.slice ⟨none, some (-1), 1⟩ else lags

/-- `fourier_shift(x, s, axis=1)` on a cube: every line along axis 1 separately. -/
noncomputable def fourierShift1 (x : Arr3 (Option ℝ)) (s : ℝ) : Arr3 (Option ℝ) :=
  ⟨x.n, x.m, x.p, fun v i j => (fourierShift ⟨x.m, fun i' => x.get v i' j⟩ s).get i⟩

/-- `fourier_shift(x, s, axis=2)` on a cube. -/
noncomputable def fourierShift2 (x : Arr3 (Option ℝ)) (s : ℝ) : Arr3 (Option ℝ) :=
  ⟨x.n, x.m, x.p, fun v i j => (fourierShift ⟨x.p, fun j' => x.get v i j'⟩ s).get j⟩

open Classical in
/-- scf.py:186-193 the cube shifted by `x_shift` along axis 1 (`float(x).is_integer()` chooses the
whole-pixel shift). -/
noncomputable def scfShiftX (data : Arr3 (Option ℝ)) (xShift : ℝ) : Py (Arr3 (Option ℝ)) :=
  if xShift = 0 then .ok data
  else if xShift = (⌊xShift⌋ : ℝ) then pixelShift data (.float xShift) 1
  else .ok (fourierShift1 data xShift)

open Classical in
/-- scf.py:195-200 the result shifted by `y_shift` along axis 2. -/
noncomputable def scfShiftY (tmp : Arr3 (Option ℝ)) (yShift : ℝ) : Py (Arr3 (Option ℝ)) :=
  if yShift ≠ 0 then
    if yShift = (⌊yShift⌋ : ℝ) then pixelShift tmp (.float yShift) 2
    else .ok (fourierShift2 tmp yShift)
  else .ok tmp

/-- scf.py:206-218 the two slices of one axis of length `n` for the `cut` boundary. -/
def scfCutSlices (n : ℕ) (s : ℤ) : PySlice × PySlice :=
  if s < 0 then (⟨none, some (n + s), 1⟩, ⟨some (-s), none, 1⟩)
  else (⟨some s, none, 1⟩, ⟨none, some (n - s), 1⟩)

/-- scf.py:202-226 the parts of `data` and `tmp` that are compared.  The code tests
`boundary is "cut"`, modelled as equality of strings (CPython interns the literals). -/
noncomputable def scfParts (boundary : String) (data tmp : Arr3 (Option ℝ)) (xShift yShift : ℝ) :
    Arr3 (Option ℝ) × Arr3 (Option ℝ) :=
  if boundary = "cut" then
    let sx := scfCutSlices tmp.m ⌈xShift⌉
    let sy := scfCutSlices tmp.p ⌈yShift⌉
    ((data.slice1 sx.1).slice2 sy.1, (tmp.slice1 sx.2).slice2 sy.2)
  else (data, tmp)

/-- scf.py:226-230 `values`: per line of sight, sum of squared differences over the sum of squares
(0/0 is NaN). -/
noncomputable def scfValues (a b : Arr3 (Option ℝ)) : Py (Arr2 (Option ℝ)) := do
  let d ← a.zip (fun s t => sqO (subO s t)) b
  let num := d.nansum0
  let den1 := (a.map sqO).nansum0
  let den2 := (b.map sqO).nansum0
  return ⟨num.n, num.m, fun i j => divO (some (num.get i j)) (some (den1.get i j + den2.get i j))⟩

/-- scf.py:232-233 `1 - sqrt(nansum(values) / sum(isfinite(values)))`, NaN when nothing is finite. -/
noncomputable def scfReduce (values : Arr2 (Option ℝ)) : Option ℝ :=
  if values.nFinite = 0 then none
  else some (1 - Real.sqrt (values.nansum / values.nFinite))

/-- scf.py:186-238 one entry of the surface. -/
noncomputable def scfValue (boundary : String) (data : Arr3 (Option ℝ)) (xShift yShift : ℝ) :
    Py (Option ℝ) := do
  let tmp ← scfShiftX data xShift
  let tmp ← scfShiftY tmp yShift
  let p := scfParts boundary data tmp xShift yShift
  let values ← scfValues p.1 p.2
  return scfReduce values

open Classical in
/-- scf.py:178-242 one pass of the loop: `n` is unravelled to `(i, j)`, the value must not exceed 1,
and is written at `[j, i]`. -/
noncomputable def scfStep (boundary : String) (data : Arr3 (Option ℝ)) (lags : Arr1 ℝ)
    (s : Arr2 (Option ℝ)) (n : ℕ) : Py (Arr2 (Option ℝ)) := do
  let i := n / lags.n
  let j := n % lags.n
  let v ← scfValue boundary data (lags.get i) (lags.get j)
  if ∃ r, v = some r ∧ 1 < r then .error .valueError
  else .ok (s.set j i v)

/-- scf.py:151-242 `SCF.compute_surface` for lags in pixels. -/
noncomputable def scfSurface (boundary : String) (data : Arr3 (Option ℝ)) (lags : Arr1 ℝ) :
    Py (Arr2 (Option ℝ)) :=
  if boundary = "continuous" ∨ boundary = "cut" then
    (List.range (lags.n * lags.n)).foldlM (scfStep boundary data lags)
      ⟨lags.n, lags.n, fun _ _ => some 0⟩
  else .error .valueError

/-- scf.py:989-998 the weights of the distance: `1/r` from the centre of the surface, 1 at the
centre, or all ones. -/
noncomputable def scfWeight (weighted : Bool) (size : ℕ) (j i : ℕ) : ℝ :=
  let a : ℤ := (i : ℤ) - (size / 2 : ℕ)
  let b : ℤ := (j : ℤ) - (size / 2 : ℕ)
  if weighted then
    (if a = 0 ∧ b = 0 then 1 else 1 / Real.sqrt ((a : ℝ) ^ 2 + (b : ℝ) ^ 2))
  else 1

open Classical in
/-- scf.py:958-1002 `SCF_Distance.distance_metric`: any NaN in a surface makes the distance NaN;
surfaces whose shape is not that of the weights raise (numpy broadcasting of 1×1 surfaces is not
modelled). -/
noncomputable def scfDistance (weighted : Bool) (size : ℕ) (s1 s2 : Arr2 (Option ℝ)) :
    Py (Option ℝ) :=
  if s1.n = size ∧ s1.m = size ∧ s2.n = size ∧ s2.m = size then
    if ∃ j < size, ∃ i < size, s1.get j i = none ∨ s2.get j i = none then .ok none
    else if size = 0 then .ok none
    else .ok (some (Real.sqrt
      ((∑ j ∈ range size, ∑ i ∈ range size,
          ((s1.get j i).getD 0 - (s2.get j i).getD 0) ^ 2 * scfWeight weighted size j i) /
        (∑ j ∈ range size, ∑ i ∈ range size, scfWeight weighted size j i))))
  else .error .valueError

end TS
