import Verif.Np.Reduce
import Verif.Np.Ranges
import Mathlib.Data.List.Sort
import Mathlib.Analysis.Real.Sqrt

/-! Model of `turbustat/statistics/threeD_to_twoD.py`. -/

namespace TS
open Finset

/-- `cube[dv, :, :].ravel()`. -/
def Arr3.channel {α : Type*} (cube : Arr3 α) (dv : ℕ) : List α :=
  (List.range cube.m).flatMap (fun i => (List.range cube.p).map (fun j => cube.get dv i j))

/-- `cube.ravel()`. -/
def Arr3.flat {α : Type*} (cube : Arr3 α) : List α := (List.range cube.n).flatMap cube.channel

/-- threeD_to_twoD.py:43-47 the values of a channel that are finite and above the noise limit
(`none` is the default limit `-inf`). -/
noncomputable def keptValues (cube : Arr3 (Option ℝ)) (noise : Option ℝ) (dv : ℕ) : List ℝ :=
  (validVals (cube.channel dv)).filter (fun v => match noise with
    | none => true
    | some l => decide (l < v))

/-- threeD_to_twoD.py:48 `np.sort(vel_vec)[::-1]`. -/
noncomputable def sortDesc (l : List ℝ) : List ℝ := l.insertionSort (fun a b => b ≤ a)

/-- threeD_to_twoD.py:49-53 the sorted values, filled up with zeros or cut to `len`. -/
noncomputable def padOrCut (l : List ℝ) (len : ℕ) : List ℝ :=
  if l.length < len then l ++ List.replicate (len - l.length) 0 else l.take len

open Classical in
/-- threeD_to_twoD.py:12-63 `intensity_data`.  `np.nanmax` of an empty cube and a negative length raise
ValueError; when the maximum is 0 every channel is appended to `delete_channels`. -/
noncomputable def intensityData (cube : Arr3 (Option ℝ)) (p : ℝ) (noise : Option ℝ) (norm : Bool) :
    Py (Arr2 (Option ℝ)) :=
  let len : ℤ := npRound (p * cube.m * cube.p)
  if len < 0 then .error .valueError
  else if norm = true ∧ cube.n * cube.m * cube.p = 0 then .error .valueError
  else
    let maxval : Option ℝ := if norm then nanmax cube.flat else some 1
    if maxval = some 0 then .ok ⟨0, len.toNat, fun _ _ => none⟩
    else .ok ⟨cube.n, len.toNat, fun dv k =>
      divO (some ((padOrCut (sortDesc (keptValues cube noise dv)) len.toNat).getD k 0)) maxval⟩

/-- threeD_to_twoD.py:78 `np.nansum(cube, axis=0).ravel()`, the brightness of flattened sky pixel `b`. -/
noncomputable def skyBrightness (cube : Arr3 (Option ℝ)) (b : ℕ) : ℝ :=
  cube.nansum0.get (b / cube.p) (b % cube.p)

/-- External contract of `np.argpartition(mom0, -k)[-k:]`: `k` different flat indices, each at least as
bright as every index not chosen. -/
structure Argpart (size : ℕ) (f : ℕ → ℝ) (k : ℕ) (bright : ℕ → ℕ) : Prop where
  lt : ∀ s < k, bright s < size
  inj : ∀ s < k, ∀ t < k, bright s = bright t → s = t
  top : ∀ s < k, ∀ b < size, (∀ t < k, bright t ≠ b) → f b ≤ f (bright s)

/-- threeD_to_twoD.py:72-90 the `spectra` branch: `bright` is the result of the argpartition (lines 80-81,
ValueError when `num_spec` exceeds the number of sky pixels).  Row and column of a flat index are
`int(b / shape[1])` and `b % shape[2]` (lines 87-88); rows outside the cube are an IndexError. -/
noncomputable def spectraData {α : Type*} (cube : Arr3 α) (numSpec : ℕ) (bright : ℕ → ℕ) :
    Py (Arr2 α) :=
  if cube.m * cube.p < numSpec then .error .valueError
  else if ∀ s < numSpec, bright s / cube.m < cube.m then
    .ok ⟨cube.n, numSpec, fun v s => cube.get v (bright s / cube.m) (bright s % cube.p)⟩
  else .error .indexError

/-- `np.linalg.norm(a, ord=2)`, the largest singular value. -/
noncomputable def specNorm (a : Arr2 ℝ) : ℝ :=
  sSup {r | ∃ v : ℕ → ℝ, (∑ j ∈ range a.m, v j ^ 2) ≤ 1 ∧
    r = Real.sqrt (∑ i ∈ range a.n, (∑ j ∈ range a.m, a.get i j * v j) ^ 2)}

open Classical in
/-- threeD_to_twoD.py:102-103 `data_matrix /= np.linalg.norm(data_matrix, ord=2)`.  An empty matrix is a
ValueError, one with NaN a LinAlgError (the SVD does not converge); dividing by 0 gives NaN. -/
noncomputable def normalizeMatrix (a : Arr2 (Option ℝ)) : Py (Arr2 (Option ℝ)) :=
  if a.n = 0 ∨ a.m = 0 then .error .valueError
  else if ∃ i < a.n, ∃ j < a.m, a.get i j = none then .error .linAlgError
  else .ok (a.map (fun v => divO v (some (specNorm (a.map (fun v => v.getD 0))))))

/-- threeD_to_twoD.py:66-105 `_format_data`.  The code tests `data_format is "spectra"`, modelled as
equality of strings. -/
noncomputable def formatData (cube : Arr3 (Option ℝ)) (dataFormat : String) (numSpec : Option ℕ)
    (bright : ℕ → ℕ) (noise : Option ℝ) (p : ℝ) (normalize : Bool) : Py (Arr2 (Option ℝ)) := do
  let mat ← if dataFormat = "spectra" then
      match numSpec with
      | none => .error .valueError
      | some k => spectraData cube k bright
    else if dataFormat = "intensity" then intensityData cube p noise true
    else .error .nameError
  if normalize then normalizeMatrix mat else return mat

/-! ### `var_cov_cube` -/

/-- `_iter_2D` (threeD_to_twoD.py:174-180): channel `i` as a flat vector of `m * p` pixels. -/
def chanVec (cube : Arr3 (Option ℝ)) (i : ℕ) : ℕ → Option ℝ :=
  fun k => cube.get i (k / cube.p) (k % cube.p)

/-- Number of finite entries of a vector of length `n`. -/
def vecCount (n : ℕ) (c : ℕ → Option ℝ) : ℕ := ∑ k ∈ range n, if (c k).isSome then 1 else 0

/-- `np.nansum` of a vector. -/
noncomputable def vecNansum (n : ℕ) (c : ℕ → Option ℝ) : ℝ := ∑ k ∈ range n, (c k).getD 0

/-- threeD_to_twoD.py:138 `chan[np.isnan(chan)] = eps`. -/
noncomputable def vcFill (eps : ℝ) (c : ℕ → Option ℝ) : ℕ → Option ℝ := fun k => some ((c k).getD eps)

/-- threeD_to_twoD.py:140-142, 144-146 optional subtraction of `np.nanmean`. -/
noncomputable def vcCenter (meanSub : Bool) (n : ℕ) (c : ℕ → Option ℝ) : ℕ → Option ℝ :=
  if meanSub then fun k => subO (c k) (divO (some (vecNansum n c)) (some (vecCount n c))) else c

/-- threeD_to_twoD.py:148-155, 159-164 sum of products over the number of finite products, less one when
mean subtracting.  (0/0 is NaN; a non-zero sum over 0 cannot occur: with one finite product left the
centred vector is 0.) -/
noncomputable def vcEntry (meanSub : Bool) (n : ℕ) (a b : ℕ → Option ℝ) : Option ℝ :=
  let prod := fun k => mulO (a k) (b k)
  let divisor : ℝ := vecCount n prod - (if meanSub then 1 else 0)
  divO (some (vecNansum n prod)) (some divisor)

/-- threeD_to_twoD.py:136-164 the matrix after the loop: below the diagonal the filled channel `i` with
the *unfilled* channel `j`, on the diagonal half the variance, zero above. -/
noncomputable def vcLower (eps : ℝ) (meanSub : Bool) (cube : Arr3 (Option ℝ)) (i j : ℕ) : Option ℝ :=
  let n := cube.m * cube.p
  let ci := vcCenter meanSub n (vcFill eps (chanVec cube i))
  if j < i then vcEntry meanSub n ci (vcCenter meanSub n (chanVec cube j))
  else if j = i then mulO (some 0.5) (vcEntry meanSub n ci ci)
  else some 0

/-- threeD_to_twoD.py:108-171 `var_cov_cube`: `cov + cov.T`, then `nan_to_num`. -/
noncomputable def varCovCube (eps : ℝ) (meanSub : Bool) (cube : Arr3 (Option ℝ)) : Arr2 ℝ :=
  ⟨cube.n, cube.n, fun i j => (addO (vcLower eps meanSub cube i j) (vcLower eps meanSub cube j i)).getD 0⟩

end TS
