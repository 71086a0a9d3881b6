import Verif.Model.ThreeDToTwoD
import Verif.Model.DistanceInit
import Verif.Model.Psds
import Verif.Np.Dft
import Verif.Np.Nan
import Mathlib.Data.List.Sort

/-!
Model of `turbustat/statistics/pca/pca.py` (eigen-decomposition bookkeeping, eigenimages,
autocorrelations, the distance and the index correction) and of the walk-down method of
`turbustat/statistics/pca/width_estimate.py`.

`np.linalg.eigh` is external: its output is a parameter constrained by `Spec.IsEigh` in the theorems.
-/

namespace TS
open Finset

/-! ### Number of eigenvalues and variance fraction -/

/-- pca.py:106, 1283-1302 `eigen_cut_method`. -/
inductive CutMethod | value | proportion | other
  deriving DecidableEq

/-- pca.py:1290 `np.cumsum(eigenvalues / eigenvalues.sum())` at index `k`; NaN when the sum is 0. -/
noncomputable def cumFraction (e : List ℝ) (k : ℕ) : Option ℝ := divO (some (e.take (k + 1)).sum) (some e.sum)

/-- A numpy comparison `x <= t` where `x` may be NaN. -/
noncomputable def leNan (x : Option ℝ) (t : ℝ) : Bool :=
  match x with
  | some v => decide (v ≤ t)
  | none => false

/-- pca.py:1260-1302 `set_n_eigs`. -/
noncomputable def setNEigs (e : List ℝ) (minEig : ℝ) : CutMethod → Py ℕ
  | .value => .ok (e.countP (fun v => decide (minEig ≤ v)))
  | .proportion =>
    let above := (List.range e.length).countP (fun k => leNan (cumFraction e k) minEig)
    if above = 0 then .ok 1 else .ok above
  | .other => .error .valueError

/-- pca.py:73-78 the `n_eigs` setter. -/
def nEigsSetter (v : ℕ) : Py ℕ := if v ≤ 0 then .error .valueError else .ok v

/-- pca.py:120-122, 132-142 how many eigenvalues are used; `e` are the sorted eigenvalues, one per
channel.  (`raise Warning` is the error `warningRaised`.) -/
noncomputable def nEigsFor (arg : NEigsArg) (minEig : Option ℝ) (method : CutMethod) (e : List ℝ) : Py ℕ :=
  match arg with
  | .auto => match minEig with
    | none => .error .valueError
    | some t => (setNEigs e t method).bind nEigsSetter
  | .num k =>
    if k = -1 then nEigsSetter e.length
    else if k < -1 ∨ (e.length : ℤ) < k ∨ k = 0 then .error .warningRaised
    else nEigsSetter k.toNat

/-- pca.py:144-149, 167-171 `total_variance`. -/
noncomputable def pcaTotal (meanSub : Bool) (e : List ℝ) : ℝ := if meanSub then e.sum else (e.drop 1).sum

/-- pca.py:144-151, 159-164 `var_proportion` (NaN when the total variance is 0). -/
noncomputable def pcaVarProp (meanSub : Bool) (e : List ℝ) (k : ℕ) : Option ℝ :=
  divO (some (if meanSub then (e.take k).sum else ((e.take k).drop 1).sum)) (some (pcaTotal meanSub e))

/-- What `compute_pca` stores. -/
structure PcaState where
  eigvals : List ℝ
  eigvecs : ℕ → ℕ → ℝ
  nEigs : ℕ
  total : ℝ
  varProp : Option ℝ
  meanSub : Bool

/-- pca.py:80-156 `compute_pca`, given the output `(lam, V)` of `np.linalg.eigh` for the covariance of
`n` channels and the order `ord` found by `np.argsort(...)[::-1]`. -/
noncomputable def computePca (n : ℕ) (lam : ℕ → ℝ) (V : ℕ → ℕ → ℝ) (ord : ℕ → ℕ) (meanSub : Bool)
    (arg : NEigsArg) (minEig : Option ℝ) (method : CutMethod) : Py PcaState := do
  let e := sortDesc ((List.range n).map lam)
  let k ← nEigsFor arg minEig method e
  return { eigvals := e, eigvecs := fun i j => V i (ord j), nEigs := k, total := pcaTotal meanSub e,
           varProp := pcaVarProp meanSub e k, meanSub := meanSub }

/-! ### Eigenimages and their autocorrelation -/

/-- pca.py:225-236 one eigenimage: the channels (less their finite mean, if asked) weighted by the
eigenvector, missing products counted as 0. -/
noncomputable def eigImage (meanSub : Bool) (cube : Arr3 (Option ℝ)) (v : ℕ → ℝ) : Arr2 ℝ :=
  ⟨cube.m, cube.p, fun r c => ∑ a ∈ range cube.n,
    (mulO (if meanSub then subO (cube.get a r c)
        (divO (some (vecNansum (cube.m * cube.p) (chanVec cube a)))
          (some (vecCount (cube.m * cube.p) (chanVec cube a))))
      else cube.get a r c) (some (v a))).getD 0⟩

/-- pca.py:195 indices of the eigenvalues at or above the precision limit. -/
noncomputable def validEigs (eps : ℝ) (e : List ℝ) : List ℕ :=
  (List.range e.length).filter (fun k => decide (eps ≤ e.getD k 0))

/-- pca.py:214-223 which eigenvectors are imaged; `n_eigs = 0` leaves `iterat` unset. -/
noncomputable def eigIndices (eps : ℝ) (e : List ℝ) (k : ℤ) : Py (List ℕ) :=
  if 0 < k then
    if e.length < k.toNat then .error .indexError else .ok (List.range k.toNat)
  else if k < 0 then
    let v := validEigs eps e
    .ok (v.drop (v.length - (-k).toNat))
  else .error .unboundLocal

/-- What `eigimages` returns: one two-dimensional image, or a stack. -/
inductive EigImgs where
  | single (img : Arr2 ℝ)
  | stack (a : Arr3 ℝ)

/-- pca.py:238-245 stacking: a single image is returned as it is; several are stacked along the third
axis (`np.dstack`) and axes 0 and 2 are swapped, so that entry `[k, c, r]` is pixel `(r, c)` of image
`k`.  No image leaves the array unset. -/
noncomputable def stackImages : List (Arr2 ℝ) → Py EigImgs
  | [] => .error .unboundLocal
  | [img] => .ok (.single img)
  | i :: j :: rest => .ok (.stack ⟨(i :: j :: rest).length, i.m, i.n, fun k c r =>
      match (i :: j :: rest)[k]? with
      | some img => img.get r c
      | none => 0⟩)

/-- pca.py:197-245 `eigimages(n_eigs)`. -/
noncomputable def eigImages (eps : ℝ) (cube : Arr3 (Option ℝ)) (st : PcaState) (k : ℤ) : Py EigImgs := do
  let ix ← eigIndices eps st.eigvals k
  stackImages (ix.map (fun q => eigImage st.meanSub cube (fun a => st.eigvecs a q)))

/-- Inverse 2D DFT (`np.fft.ifft2`). -/
noncomputable def idft2 (n m : ℕ) (F : ℕ → ℕ → ℂ) (i j : ℤ) : ℂ :=
  idft1 m (fun l => idft1 n (fun k => F k l) i) j

/-- pca.py:269-273 autocorrelation of one eigenimage: `fft2`, subtract the mean *of the transform*,
multiply with the conjugate, `ifft2`, shift lag 0 to the centre, real part. -/
noncomputable def acorImage (img : Arr2 ℝ) : Arr2 ℝ :=
  let F := fun k l : ℕ => dft2 img.n img.m (fun i j => (img.get i j : ℂ)) k l
  let G := fun k l : ℕ => (starRingEnd ℂ) (F k l)
  let mean := fun H : ℕ → ℕ → ℂ => (∑ k ∈ range img.n, ∑ l ∈ range img.m, H k l) / ((img.n * img.m : ℕ) : ℂ)
  (Arr2.fftshift ⟨img.n, img.m, fun i j =>
    (idft2 img.n img.m (fun k l => (F k l - mean F) * (G k l - mean G)) i j)⟩ : Arr2 ℂ).map Complex.re

/-- pca.py:238-245, 267-284 `autocorr_images` for the chosen eigenimages.  No image leaves the arrays
unset; a single image stays two-dimensional, so the loop runs over its rows and `fft2` fails.  The
transposition of the images (`swapaxes`) is undone by the second one and not modelled. -/
noncomputable def autocorrImages : List (Arr2 ℝ) → Py (List (Arr2 ℝ))
  | [] => .error .unboundLocal
  | [_] => .error .indexError
  | imgs => .ok (imgs.map acorImage)

/-- pca.py:316-337 `noise_ACF`. -/
noncomputable def noiseAcf (eps : ℝ) (cube : Arr3 (Option ℝ)) (st : PcaState) (k : ℤ) : Py (Arr2 ℝ) := do
  let ix ← eigIndices eps st.eigvals k
  let acors ← autocorrImages (ix.map (fun q => eigImage st.meanSub cube (fun a => st.eigvecs a q)))
  return ⟨cube.m, cube.p, fun r c => (acors.map (fun a => a.get r c)).sum / (k : ℝ)⟩

/-- pca.py:306-309 autocorrelation of one eigenvector. -/
noncomputable def acorSpec (n : ℕ) (v : ℕ → ℝ) : Arr1 ℝ :=
  let F := fun k : ℕ => dft1 n (fun i => (v i : ℂ)) k
  let G := fun k : ℕ => (starRingEnd ℂ) (F k)
  let mean := fun H : ℕ → ℂ => (∑ k ∈ range n, H k) / (n : ℂ)
  ⟨n, fun j => (idft1 n (fun k => (F k - mean F) * (G k - mean G)) j).re⟩

/-! ### Widths -/

/-- width_estimate.py:314 `np.fft.fftfreq(len(y)) * len(y)`. -/
noncomputable def lagAxis (n : ℕ) (i : ℕ) : ℝ := (fftfreq n).get i * n

/-- Python indexing with `i - 1`, where `-1` is the last entry. -/
def prevIx (n i : ℕ) : ℕ := if i = 0 then n - 1 else i - 1

/-- width_estimate.py:358-371 walking down the normalised curve from index `i`.  At
`i = 0` the previous entry is the last one; if the two are equal the code divides by zero, which is not
modelled (a curve with its maximum first starts at 1). -/
noncomputable def walkFrom (n : ℕ) (y : ℕ → ℝ) (i : ℕ) : Option (ℝ × ℝ) :=
  if i < n then
    if y i < Real.exp (-1) then
      some (lagAxis n (prevIx n i) + (Real.exp (-1) - y (prevIx n i)) / (y i - y (prevIx n i)), 0.5)
    else walkFrom n y (i + 1)
  else none
termination_by n - i

/-- width_estimate.py:354-371 the walk-down method for one curve: width and error, `none` for NaN. An
empty curve has no maximum; a curve of maximum 0 turns into NaN, which never compares
(negative entries turn into minus infinity, whose width is NaN too; their error of 0.5 is not modelled). -/
noncomputable def walkDown (y : Arr1 ℝ) : Py (Option (ℝ × ℝ)) := do
  let mx ← npMax ((List.range y.n).map y.get)
  return if mx = 0 then none else walkFrom y.n (fun i => y.get i / mx) 0

/-! ### Distance and index correction -/

/-- pca.py:1146-1156 the compared part of a spectrum, normalised by its sum. -/
noncomputable def pcaNormalised (meanSub : Bool) (k : ℕ) (e : List ℝ) : List (Option ℝ) :=
  let s := if meanSub then e.take k else (e.take k).drop 1
  s.map (fun v => divO (some v) (some s.sum))

/-- pca.py:1146-1158 the distance for `k` eigenvalues; arrays of unequal length do not broadcast
(except a length of 1, which does). -/
noncomputable def pcaDistance (meanSub : Bool) (k : ℕ) (e1 e2 : List ℝ) : Py (Option ℝ) :=
  let a := pcaNormalised meanSub k e1
  let b := pcaNormalised meanSub k e2
  if a.length = b.length ∨ a.length = 1 ∨ b.length = 1 then
    let len := max a.length b.length
    let len := if a.length = 0 ∨ b.length = 0 then 0 else len
    let get := fun (l : List (Option ℝ)) i => if l.length = 1 then l.getD 0 none else l.getD i none
    let diffs := (List.range len).map (fun i => subO (get a i) (get b i))
    .ok ((diffs.foldr (fun d acc => addO (mulO d d) acc) (some 0)).map Real.sqrt)
  else .error .valueError

/-- pca.py:1220-1248 `brunt_index_correct`. -/
noncomputable def bruntCorrect (alpha : ℝ) : ℝ := 1.52 * alpha - 0.19

/-- pca.py:1251-1257 `brunt_index_correct_range`. -/
noncomputable def bruntRange (low up : ℝ) : ℝ × ℝ :=
  ((1.52 - 0.18) * low - (0.19 + 0.2), (1.52 + 0.18) * up - (0.19 - 0.2))

end TS
