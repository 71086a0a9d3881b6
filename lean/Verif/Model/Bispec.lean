import Verif.Np.Dft
import Verif.Np.Nan
import Verif.Np.Ranges
import Verif.Model.Psds

/-! Model of turbustat/statistics/pspec_bispec/bispec.py. -/

namespace TS
open Finset

/-- numpy integer indexing of an axis of length `n`: negative indices count from the end. -/
def npIdx (n : ℕ) (i : ℤ) : Py ℕ := if -(n : ℤ) ≤ i ∧ i < n then .ok (i % n).toNat else .error .indexError

/-- The wave vectors of one random draw. -/
structure Triangle where
  k1 : ℤ × ℤ
  k2 : ℤ × ℤ
  k3 : ℤ × ℤ

/-- bispec.py:134-148 the wave vectors for magnitudes `k1mag`, `k2mag` and angles `phi1`, `phi2`; each
component is truncated separately. -/
noncomputable def triangle (k1mag k2mag : ℕ) (phi : ℝ × ℝ) : Triangle :=
  ⟨(pyInt (k1mag * Real.cos phi.1), pyInt (k1mag * Real.sin phi.1)),
   (pyInt (k2mag * Real.cos phi.2), pyInt (k2mag * Real.sin phi.2)),
   (pyInt (k1mag * Real.cos phi.1 + k2mag * Real.cos phi.2),
    pyInt (k1mag * Real.sin phi.1 + k2mag * Real.sin phi.2))⟩

/-- `fftarr[k]` for one wave vector. -/
def fftAt (F : Arr2 ℂ) (k : ℤ × ℤ) : Py ℂ := do
  let i ← npIdx F.n k.1
  let j ← npIdx F.m k.2
  return F.get i j

/-- bispec.py:150 one sample `F(k1) F(k2) conj F(k3)`. -/
noncomputable def bispecSample (F : Arr2 ℂ) (t : Triangle) : Py ℂ := do
  let a ← fftAt F t.k1
  let b ← fftAt F t.k2
  let c ← fftAt F t.k3
  return a * b * (starRingEnd ℂ) c

/-- bispec.py:150 the samples of one bin (`draws` are the random angles of that bin). -/
noncomputable def bispecSamples (F : Arr2 ℂ) (k1 k2 : ℕ) (draws : List (ℝ × ℝ)) : Py (List ℂ) :=
  draws.mapM (fun phi => bispecSample F (triangle k1 k2 phi))

/-- Surfaces computed by `compute_bispectrum`. -/
structure BispecOut where
  bispectrum : Arr2 ℂ
  bicoherence : Arr2 (Option ℝ)
  tracker : Arr2 ℕ

/-- bispec.py:93-111 `np.fft.fft2` of the data or of the data minus its mean. -/
noncomputable def bispecFft (img : Arr2 ℝ) (meanSubtract : Bool) : Arr2 ℂ :=
  let mean : ℝ := (∑ i ∈ range img.n, ∑ j ∈ range img.m, img.get i j) / ((img.n * img.m : ℕ) : ℝ)
  let d : ℕ → ℕ → ℝ := fun i j => if meanSubtract then img.get i j - mean else img.get i j
  ⟨img.n, img.m, fun k l => dft2 img.n img.m (fun i j => (d i j : ℂ)) k l⟩

/-- bispec.py:157-159 what one bin adds to the tracker: `tracker[kx, ky] += 1` with index arrays adds 1
once, however often the pixel occurs. -/
noncomputable def trackerAdd (n m : ℕ) (k1 k2 : ℕ) (draws : List (ℝ × ℝ)) (i j : ℕ) : ℕ :=
  let hit := fun (sel : Triangle → ℤ × ℤ) => draws.any (fun phi =>
    decide (((sel (triangle k1 k2 phi)).1 % n).toNat = i ∧ ((sel (triangle k1 k2 phi)).2 % m).toNat = j))
  (if hit Triangle.k1 then 1 else 0) + (if hit Triangle.k2 then 1 else 0) + (if hit Triangle.k3 then 1 else 0)

/-- bispec.py:154,164 bicoherence of one bin: NaN when the normalisation is zero. -/
noncomputable def bicohOf (samps : List ℂ) : Option ℝ :=
  divO (some ‖samps.sum‖) (some (samps.map (fun z => ‖z‖)).sum)

open Classical in
/-- bispec.py:64-165 `compute_bispectrum` on an image without NaN (`__init__` fills them with 0).
`draws k1 k2` are the angle pairs drawn for that bin; an index outside the transform raises.  The int16
overflow of the tracker is not modelled. -/
noncomputable def computeBispectrum (img : Arr2 ℝ) (meanSubtract : Bool) (draws : ℕ → ℕ → List (ℝ × ℝ)) :
    Py BispecOut :=
  let F := bispecFft img meanSubtract
  let h0 := img.n / 2
  let h1 := img.m / 2
  if ∃ k1 < h0, ∃ k2 < h1, ∃ e, bispecSamples F k1 k2 (draws k1 k2) = .error e then .error .indexError
  else
    let samps := fun k1 k2 => match bispecSamples F k1 k2 (draws k1 k2) with
      | .ok l => l
      | .error _ => []
    .ok ⟨⟨h0, h1, fun k1 k2 => (samps k1 k2).sum⟩, ⟨h0, h1, fun k1 k2 => bicohOf (samps k1 k2)⟩,
      ⟨img.n, img.m, fun i j => ∑ k1 ∈ range h0, ∑ k2 ∈ range h1, trackerAdd img.n img.m k1 k2 (draws k1 k2) i j⟩⟩

/-- bispec.py:257-260, 366-373 distance of a surface pixel from the origin. -/
noncomputable def bispecDist (n m : ℕ) : Arr2 ℝ :=
  let g := makeRadialArrays n m (some 0) (some 0)
  ⟨n, m, fun i j => Real.sqrt ((g.1.get i j : ℝ) ^ 2 + (g.2.get i j : ℝ) ^ 2)⟩

/-- bispec.py:261, 374 polar angle of a surface pixel. -/
noncomputable def bispecTheta (n m : ℕ) : Arr2 ℝ :=
  let g := makeRadialArrays n m (some 0) (some 0)
  ⟨n, m, fun i j => arctan2 (g.1.get i j) (g.2.get i j)⟩

/-- bispec.py:263-264, 376-377 `np.linspace(0, top, np.floor(top / bin_width))`.  Fewer than two edges make
scipy fail; this is modelled as ValueError. -/
noncomputable def sliceEdges (top binWidth : ℝ) : Py (Arr1 ℝ) :=
  if ⌊top / binWidth⌋ < 2 then .error .valueError else .ok (linspace 0 top ⌊top / binWidth⌋.toNat)

/-- A slice: bin centres and means (the standard deviations are not modelled). -/
structure BispecSlice where
  centres : Arr1 ℝ
  means : Arr1 (Option ℝ)

/-- Binned means of the finite surface pixels inside a mask. -/
noncomputable def sliceOf (surf : Arr2 (Option ℝ)) (x : Arr2 ℝ) (mask : Arr2 Bool) (edges : Arr1 ℝ) : BispecSlice :=
  ⟨⟨edges.n - 1, fun k => (edges.get (k + 1) + edges.get k) / 2⟩,
   binnedStatistic (pspecSamples surf x (some mask)) edges npMean⟩

/-- bispec.py:195-295 `azimuthal_slice` for one radius and a real surface (bicoherence or log amplitude);
`binWidth` in radians. -/
noncomputable def azimuthalSlice (surf : Arr2 (Option ℝ)) (rad delRad binWidth : ℝ) : Py BispecSlice := do
  let edges ← sliceEdges Real.pi binWidth
  let d := bispecDist surf.n surf.m
  let mask : Arr2 Bool := ⟨surf.n, surf.m, fun i j => decide (rad - delRad / 2 ≤ d.get i j) && decide (d.get i j ≤ rad + delRad / 2)⟩
  return sliceOf surf (bispecTheta surf.n surf.m) mask edges

/-- bispec.py:297-404 `radial_slice` for one angle (in radians) and a real surface. -/
noncomputable def radialSlice (surf : Arr2 (Option ℝ)) (theta delTheta binWidth : ℝ) : Py BispecSlice := do
  let d := bispecDist surf.n surf.m
  let top ← npMax d.ravel
  let edges ← sliceEdges top binWidth
  let t := bispecTheta surf.n surf.m
  let mask : Arr2 Bool := ⟨surf.n, surf.m, fun i j => decide (theta - delTheta / 2 ≤ t.get i j) && decide (t.get i j ≤ theta + delTheta / 2)⟩
  return sliceOf surf d mask edges

/-- Sum over all entries; NaN if any entry is NaN. -/
noncomputable def Arr2.sumO (a : Arr2 (Option ℝ)) : Option ℝ :=
  if ∀ i ∈ range a.n, ∀ j ∈ range a.m, a.get i j ≠ none then
    some (∑ i ∈ range a.n, ∑ j ∈ range a.m, (a.get i j).getD 0) else none

/-- `surface_distance` and `mean_distance`. -/
structure BispecDist where
  surface : Option ℝ
  mean : Option ℝ

/-- `a.mean()`: NaN with a NaN entry or without entries. -/
noncomputable def Arr2.meanO (a : Arr2 (Option ℝ)) : Option ℝ := divO a.sumO (some ((a.n * a.m : ℕ) : ℝ))

/-- bispec.py:599-609 `Bispectrum_Distance.distance_metric` on two bicoherence surfaces. -/
noncomputable def bispecDistance (a b : Arr2 (Option ℝ)) : BispecDist :=
  ⟨if a.n = b.n ∧ a.m = b.m then
      (Arr2.sumO ⟨a.n, a.m, fun i j => (subO (a.get i j) (b.get i j)).map (fun x => x ^ 2)⟩).map Real.sqrt
    else none,
   (subO a.meanO b.meanO).map (fun x => |x|)⟩

end TS
