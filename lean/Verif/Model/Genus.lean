import Verif.Np.Core
import Mathlib.Analysis.SpecialFunctions.Exp
import Mathlib.Analysis.SpecialFunctions.Log.Basic
import Mathlib.Analysis.SpecialFunctions.Pow.Real
import Mathlib.Analysis.Real.Pi.Bounds
import Mathlib.Logic.Relation
import Mathlib.Data.Finset.Card

/-!
Model of `turbustat/statistics/genus/genus.py`.

`scipy.ndimage.label` is an external function; it is modelled here as what its documentation says: pixels that are on get
equal labels exactly when a chain of neighbouring "on" pixels joins them, regions being numbered 1, 2, … in the order of
their first pixel.  The smoothed images (astropy's `convolve_fft`) are parameters.
-/

namespace TS
open Finset

/-- A pixel of the mask that is on. -/
def Arr2.On (a : Arr2 Bool) (p : ℕ × ℕ) : Prop := p.1 < a.n ∧ p.2 < a.m ∧ a.get p.1 p.2 = true

/-- `generate_binary_structure(2, connectivity)`: offsets of at most one in each coordinate, with at most `connectivity`
coordinates changed. -/
def Neighbours (conn : ℕ) (p q : ℕ × ℕ) : Prop :=
  p.1 ≤ q.1 + 1 ∧ q.1 ≤ p.1 + 1 ∧ p.2 ≤ q.2 + 1 ∧ q.2 ≤ p.2 + 1 ∧
    (if p.1 = q.1 then 0 else 1) + (if p.2 = q.2 then 0 else 1) ≤ conn

/-- Joined by a chain of neighbouring pixels, all on. -/
def Linked (a : Arr2 Bool) (conn : ℕ) : ℕ × ℕ → ℕ × ℕ → Prop :=
  Relation.ReflTransGen (fun p q => a.On p ∧ a.On q ∧ Neighbours conn p q)

/-- Position in raster order. -/
def raster (a : Arr2 Bool) (p : ℕ × ℕ) : ℕ := p.1 * a.m + p.2

/-- First pixel, in raster order, of the region of a pixel. -/
noncomputable def regionRoot (a : Arr2 Bool) (conn : ℕ) (p : ℕ × ℕ) : ℕ := sInf {r | ∃ q, Linked a conn p q ∧ raster a q = r}

open Classical in
/-- First pixels of all regions. -/
noncomputable def regionRoots (a : Arr2 Bool) (conn : ℕ) : Finset ℕ :=
  (range (a.n * a.m)).filter (fun r => ∃ p, a.On p ∧ raster a p = r ∧ regionRoot a conn p = r)

open Classical in
/-- `nd.label(arr, struct)[0]`. -/
noncomputable def ndLabel (a : Arr2 Bool) (conn : ℕ) (p : ℕ × ℕ) : ℕ :=
  if a.On p then ((regionRoots a conn).filter (fun r => r ≤ regionRoot a conn p)).card else 0

/-- `nd.label(arr, struct)[1]`. -/
noncomputable def ndLabelNum (a : Arr2 Bool) (conn : ℕ) : ℕ := (regionRoots a conn).card

/-- genus.py:680 `nd.sum(arr, labels, …)`: number of pixels with label `i + 1`. -/
noncomputable def labelSize (a : Arr2 Bool) (conn : ℕ) (i : ℕ) : ℕ :=
  (((range a.n) ×ˢ (range a.m)).filter (fun p => ndLabel a conn p = i + 1)).card

/-- genus.py:676-690 `remove_small_objects`: the loop over the labels of the original array. -/
noncomputable def removeSmallObjects (a : Arr2 Bool) (minSize : ℤ) (conn : ℕ) : Arr2 Bool :=
  (List.range (ndLabelNum a conn)).foldl (fun (b : Arr2 Bool) i =>
    if (labelSize a conn i : ℤ) ≥ minSize then b
    else ⟨b.n, b.m, fun y x => if ndLabel a conn (y, x) = i + 1 then false else b.get y x⟩) a

/-- genus.py:324 `smooth_img > thresh` (false for NaN). -/
noncomputable def above (img : Arr2 (Option ℝ)) (t : ℝ) : Arr2 Bool := img.map (fun v => (v.map (fun x => decide (t < x))).getD false)
/-- genus.py:325 `smooth_img < thresh` (false for NaN). -/
noncomputable def below (img : Arr2 (Option ℝ)) (t : ℝ) : Arr2 Bool := img.map (fun v => (v.map (fun x => decide (x < t))).getD false)

/-- genus.py:323-340 one value of the genus curve. -/
noncomputable def genusValue (img : Arr2 (Option ℝ)) (t : ℝ) (removal : Bool) (minSize : ℤ) (conn : ℕ) : ℤ :=
  let high := if removal then removeSmallObjects (above img t) minSize conn else above img t
  let low := if removal then removeSmallObjects (below img t) minSize conn else below img t
  (ndLabelNum high conn : ℤ) - ndLabelNum low conn

/-- genus.py:288-340 `genus_stats[j, i]` for the smoothed image of radius `j` and threshold `i`. -/
noncomputable def genusStats (smoothed : List (Arr2 (Option ℝ))) (thresholds : List ℝ) (removal : Bool) (minSize : ℤ) (conn : ℕ) :
    List (List ℤ) :=
  smoothed.map (fun img => thresholds.map (fun t => genusValue img t removal minSize conn))

/-- genus.py:271-277 the minimum area for `use_beam=True`, in pixels, from the FWHMs. -/
noncomputable def beamMinSize (major minor : ℝ) : ℤ := ⌊2 * Real.pi * major * minor / Real.sqrt (8 * Real.log 2)⌋

/-- One table of genus.py:359-386. -/
structure GenusTable where
  thresholds : List ℝ
  values : List ℤ
  mean : List ℝ
  std : List ℝ
  radius : List (Option ℝ)
  deriving Inhabited

/-- genus.py:350-393 `make_genus_stats_table`: the table of each radius is appended twice (381 and 390; the same object,
so both carry the last column). -/
def genusTables (radii : List (Option ℝ)) (thresholds : List ℝ) (stats : List (List ℤ)) (means stds : List ℝ) : List GenusTable :=
  (List.range radii.length).foldl (fun acc i =>
    let tab : GenusTable := ⟨thresholds, stats.getD i [], List.replicate thresholds.length (means.getD i 0),
      List.replicate thresholds.length (stds.getD i 0), List.replicate thresholds.length (radii.getD i none)⟩
    acc ++ [tab] ++ [tab]) []

/-- genus.py:693-715 `model_gaussian_genus`. -/
noncomputable def modelGaussianGenus (x A theta : ℝ) : ℝ :=
  (A / theta ^ 2) * x * Real.exp (-x ^ 2 / 2) / (2 * Real.pi) ^ (1.5 : ℝ)

/-- genus.py:184-201 the `smoothing_radii` setter (an array of radii; `minSide = min(data.shape)`). -/
noncomputable def setSmoothingRadii (old : Option (List ℝ)) (minSide : ℕ) (values : List ℝ) : Option (List ℝ) × Option PyErr :=
  if values.any (fun v => decide (v < 1)) then (old, some .valueError)
  else if values.any (fun v => decide (v > 0.5 * minSide)) then (old, some .valueError)
  else (some values, none)

end TS
