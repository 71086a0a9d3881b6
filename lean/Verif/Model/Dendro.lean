import Verif.Np.Core
import Verif.Np.Nan
import Verif.Np.Ranges

/-!
Model of `turbustat/statistics/dendrograms/dendro_stats.py` and `mecdf.py`.

Not modelled: `astrodendro` itself (a dendrogram is an abstract value with a number of structures, their peak values and a
pruning function), the statsmodels fit (the points handed to it are modelled), plotting, progress bars and files.
-/

namespace TS

/-- The two entries of `dendro_params` the thresholds depend on (absent = `none`). -/
structure DendroParams where
  minValue : Option ℝ
  minDelta : Option ℝ

/-- What a caller can assign to `min_deltas`. -/
inductive DeltaArg where
  | none
  | scalar (v : ℝ)
  | list (l : List (Option ℝ))
  | array (l : List (Option ℝ))

/-- What is stored: a one-dimensional array, or a two-dimensional one with a single row. -/
inductive Deltas where
  | vector (l : List (Option ℝ))
  | oneRow (l : List (Option ℝ))

/-- `b - a > 0` (false when either is NaN). -/
noncomputable def stepUp (p : Option ℝ × Option ℝ) : Bool :=
  match p with
  | (some a, some b) => decide (0 < b - a)
  | _ => false

/-- dendro_stats.py:100 `(np.diff(value) > 0).all()`. -/
noncomputable def allIncreasing (l : List (Option ℝ)) : Bool := (l.zip l.tail).all stepUp

/-- dendro_stats.py:93-107 the `min_deltas` setter: new stored value (the old one if it raises) and the error.
`np.diff` of `None` or of a number raises ValueError; a list passes the check and is stored as `np.array([value])`. -/
noncomputable def setMinDeltas (params : DendroParams) (old : Option Deltas) : DeltaArg → Option Deltas × Option PyErr
  | .none => match params.minDelta with
    | some d => (some (.vector [some d]), none)
    | none => (old, some .valueError)
  | .scalar _ => (old, some .valueError)
  | .list l => if allIncreasing l then (some (.oneRow l), none) else (old, some .valueError)
  | .array l => if allIncreasing l then (some (.vector l), none) else (old, some .valueError)

/-- `np.linspace(a, b, num + 1)[:-1]`; with an infinite upper end the first value is `0 * inf + a`, NaN, and so is no
difference positive (written as NaNs). -/
noncomputable def deltaGrid (a : ℝ) (b : Option ℝ) (num : ℕ) : List (Option ℝ) :=
  match b with
  | some b => (List.range num).map (fun i => some ((linspace a b (num + 1)).get i))
  | none => (List.range num).map (fun _ => none)

/-- dendro_stats.py:109-129 `autoset_min_deltas` (`data` = all pixels, NaN = `none`).  Without a `min_value`
the range above it is infinite. -/
noncomputable def autosetMinDeltas (params : DendroParams) (data : List (Option ℝ)) (num : ℕ) (old : Option Deltas) :
    Option Deltas × Option PyErr :=
  let minDelta := params.minDelta.getD (1 / 100000)
  match params.minValue with
  | some mv => match maxO ((validVals data).filter (fun x => decide (mv < x))) with
    | none => (old, some .valueError)
    | some mx => setMinDeltas params old (.array (deltaGrid minDelta (some (mx - mv)) num))
  | none => match maxO (validVals data) with
    | none => (old, some .valueError)
    | some _ => setMinDeltas params old (.array (deltaGrid minDelta none num))

/-- `np.std` of some numbers (NaN when there are none). -/
noncomputable def npStd (l : List ℝ) : Option ℝ := (varO l).map Real.sqrt

open Classical in
/-- `np.argmax`: the first NaN, or else the first maximum; ValueError for an empty array. -/
noncomputable def npArgmax (l : List (Option ℝ)) : Py ℕ :=
  if l = [] then .error .valueError
  else if none ∈ l then .ok (l.findIdx (fun v => v.isNone))
  else .ok (l.findIdx (fun v => decide (∀ w ∈ validVals l, ∃ x, v = some x ∧ w ≤ x)))

/-- dendro_stats.py:931-932 the window of index `k` (`i = k + half`): `y[i - half : i + half]`. -/
noncomputable def windowStd (y : List ℝ) (half k : ℕ) : Option ℝ := npStd ((y.drop k).take (2 * half))

/-- dendro_stats.py:909-940 `std_window`, for a size of at least 1: `half_size`, the allocation (a negative length raises
ValueError), the loop (`shape - 2 * half` passes; writing past the end raises IndexError) and the maximum. -/
noncomputable def stdWindow (y : List ℝ) (size : ℕ) : Py (ℕ × List (Option ℝ)) :=
  let half := (size - 1) / 2
  if y.length + 1 < size then .error .valueError
  else
    let alloc := y.length + 1 - size
    if alloc < y.length - 2 * half then .error .indexError
    else do
      let stds := (List.range alloc).map (windowStd y half)
      let k ← npArgmax stds
      .ok (k + half, stds)

/-- dendro_stats.py:270-284 the points `fit_numfeat` hands to the fit, as (delta, number) pairs before the logarithm, and
`break_pos`. -/
noncomputable def fitPoints (deltas : List ℝ) (nums : List ℕ) (size : ℕ) : Py (ℝ × List (ℝ × ℕ)) :=
  if nums.length = 1 then .error .valueError
  else
    let kept := (deltas.zip nums).filter (fun p => decide (1 < p.2))
    match stdWindow (kept.map (fun p => (p.2 : ℝ))) size with
    | .error e => .error e
    | .ok (brk, _) =>
      match kept[brk]? with
      | none => .error .indexError
      | some p => if (kept.drop brk).length < 2 then .error .valueError else .ok (p.1, kept.drop brk)

/-- An external dendrogram: number of structures, their peaks, and pruning. -/
structure DendroLib (D : Type*) where
  len : D → ℕ
  peaks : D → List ℝ
  prune : D → ℝ → D

/-- dendro_stats.py:155-194 `compute_dendro` after the first dendrogram `d` (computed with the first threshold, or the
caller's `dendro_obj`): counts, peaks, and the state the object is left in.  Pruning works in place. -/
def computeDendro {D : Type*} (lib : DendroLib D) (d : D) (rest : List ℝ) : List ℕ × List (List ℝ) × D :=
  rest.foldl (fun st delta =>
      let d' := lib.prune st.2.2 delta
      (st.1 ++ [lib.len d'], st.2.1 ++ [lib.peaks d'], d'))
    ([lib.len d], [lib.peaks d], d)

/-- dendro_stats.py:225-239 one pass of the loop of `make_hists`: the `bins` option still in `kwargs` and the numbers of
bins used so far (`none` = too few structures); the option is popped when it is used. -/
def histStep (minNumber : ℕ) (st : Option ℕ × List (Option ℕ)) (v : List ℝ) : Option ℕ × List (Option ℕ) :=
  if v.length < minNumber then (st.1, st.2 ++ [none])
  else match st.1 with
    | none => (none, st.2 ++ [some (Nat.sqrt v.length)])
    | some b => (none, st.2 ++ [some b])

/-- dendro_stats.py:211-241 `make_hists`: the number of bins used for each list of peaks. -/
def histBins (minNumber : ℕ) (bins : Option ℕ) (values : List (List ℝ)) : List (Option ℕ) :=
  (values.foldl (histStep minNumber) (bins, [])).2

/-- dendro_stats.py:592-607: `np.argwhere(numfeatures > min_features)`, `.any()` of the positions, and the last one. -/
def cutoffOf (numfeatures : List ℕ) (minFeatures : ℕ) : Py ℕ :=
  let pos := (List.range numfeatures.length).filter (fun i => decide (minFeatures < numfeatures.getD i 0))
  if pos.any (fun i => i != 0) then .ok (pos.getLastD 0) else .error .valueError

/-- dendro_stats.py:592-609 the cutoff of the distance. -/
def distCutoff (n1 n2 : List ℕ) (minFeatures : ℕ) : Py ℕ := do
  let c1 ← cutoffOf n1 minFeatures
  let c2 ← cutoffOf n2 minFeatures
  .ok (min c1 c2)

/-- dendro_stats.py:719-725 `nbins="best"`: one number per threshold below the cutoff. -/
noncomputable def bestBins (n1 n2 : List ℕ) (cutoff : ℕ) : List ℕ :=
  ((n1.take cutoff).zip (n2.take cutoff)).map (fun p => Nat.floor (Real.sqrt ((p.1 + p.2 : ℝ) / 2)))

/-- `np.sum` of a row with NaNs: NaN if any is. -/
noncomputable def mecdfSum (row : List (Option ℝ)) : Option ℝ := row.foldl addO (some 0)

/-- mecdf.py:36-38 one row: `np.cumsum(row / np.sum(row))`. -/
noncomputable def mecdfRow (row : List (Option ℝ)) : List (Option ℝ) :=
  let s := mecdfSum row
  (List.range row.length).map (fun k => ((row.map (fun v => divO v s)).take (k + 1)).foldl addO (some 0))

end TS
