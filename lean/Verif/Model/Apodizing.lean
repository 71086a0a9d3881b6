import Verif.Np.Core
import Mathlib.Analysis.SpecialFunctions.Trigonometric.Basic
import Mathlib.Analysis.Real.Sqrt
import Mathlib.Algebra.Order.Floor.Ring

/-! Model of `turbustat/statistics/apodizing_kernels.py` and of the window dispatch in
`turbustat/statistics/base_pspec2.py`. -/

namespace TS

/-- apodizing_kernels.py:43-66 `_radial_distance`: distance of pixel `(i, j)` from the centre
`((n-1)/2, (m-1)/2)` of an `(n, m)` array. -/
noncomputable def radialDistance (n m : ℕ) (i j : ℕ) : ℝ :=
  let x : ℝ := (j : ℝ) - ((m : ℝ) - 1) / 2
  let y : ℝ := (i : ℝ) - ((n : ℝ) - 1) / 2
  Real.sqrt (x ^ 2 + y ^ 2)

/-- apodizing_kernels.py:126 `npts`. -/
noncomputable def halfExtent (n m : ℕ) : ℝ := (((min n m : ℕ) : ℝ) - 1) / 2

/-- apodizing_kernels.py:127 `r_inner`. -/
noncomputable def rInner (beta : ℝ) (n m : ℕ) : ℝ := beta * halfExtent n m

/-- apodizing_kernels.py:129 `r_taper = int(np.floor(alpha * npts))`. -/
noncomputable def rTaper (alpha : ℝ) (n m : ℕ) : ℤ := ⌊alpha * halfExtent n m⌋

/-- apodizing_kernels.py:110-140 `SplitCosineBellWindow.__call__`.  A shape that does not have
two entries raises ValueError (60-61).  The two masked assignments of lines 136 and 138 are
applied in order, the second overriding the first. -/
noncomputable def splitCosineBell (alpha beta : ℝ) (shape : List ℕ) : Py (Arr2 ℝ) :=
  match shape with
  | [n, m] =>
    let rt := rTaper alpha n m
    let ri := rInner beta n m
    .ok ⟨n, m, fun i j =>
      let d := radialDistance n m i j
      let f0 : ℝ := if rt ≠ 0 then (1 / 2) * (1 + Real.cos (Real.pi * (d - ri) / rt)) else 1
      let f1 : ℝ := if d < ri then 1 else f0
      if d > ri + rt then 0 else f1⟩
  | _ => .error .valueError

/-- apodizing_kernels.py:175-177 `HanningWindow`. -/
noncomputable def hanningWindow (shape : List ℕ) : Py (Arr2 ℝ) := splitCosineBell 1 0 shape

/-- apodizing_kernels.py:219-221 `TukeyWindow`. -/
noncomputable def tukeyWindow (alpha : ℝ) (shape : List ℕ) : Py (Arr2 ℝ) :=
  splitCosineBell alpha (1 - alpha) shape

/-- apodizing_kernels.py:257-259 `CosineBellWindow`. -/
noncomputable def cosineBellWindow (alpha : ℝ) (shape : List ℕ) : Py (Arr2 ℝ) :=
  splitCosineBell alpha 0 shape

/-- base_pspec2.py:330-366 `apodizing_kernel`: choice of window by name; for cubes the first
(spectral) axis is dropped. -/
noncomputable def apodizingKernel (kernelType : String) (alpha beta : ℝ) (shape : List ℕ) :
    Py (Arr2 ℝ) :=
  let shape := if shape.length > 2 then shape.drop 1 else shape
  if kernelType = "splitcosinebell" then splitCosineBell alpha beta shape
  else if kernelType = "hanning" then hanningWindow shape
  else if kernelType = "tukey" then tukeyWindow alpha shape
  else if kernelType = "cosinebell" then cosineBellWindow alpha shape
  else .error .valueError

end TS
