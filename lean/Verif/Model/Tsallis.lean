import Verif.Model.StatsUtils
import Verif.Model.Psds
import Verif.Np.Histogram
import Verif.Np.Reduce

/-! Model of `turbustat/statistics/tsallis/tsallis.py` (lag setter: see Model/DeltaVariance.lean). -/

namespace TS
open Finset

/-- tsallis.py:121-124 sum of the four rolled images. -/
noncomputable def rollSum (a : Arr2 (Option ℝ)) (lag : ℕ) : Arr2 (Option ℝ) :=
  ⟨a.n, a.m, fun i j => addO (addO (addO ((a.roll0 lag).get i j) ((a.roll0 (-(lag : ℤ))).get i j))
    ((a.roll1 lag).get i j)) ((a.roll1 (-(lag : ℤ))).get i j)⟩

/-- tsallis.py:117-133 the increment map at a whole-pixel lag; `junk` are the unspecified margin values
numpy hands to the padding callback. -/
noncomputable def tsallisMap (junk : ℕ → ℕ → Option ℝ) (periodic : Bool) (lag : ℕ)
    (img : Arr2 (Option ℝ)) : Arr2 (Option ℝ) :=
  if periodic then
    let r := rollSum img lag
    ⟨r.n, r.m, fun i j => subO (divO (r.get i j) (some 4)) (img.get i j)⟩
  else
    let pad := npPad2 junk (padWith (some 0)) img lag
    let s : PySlice := ⟨some lag, some (-(lag : ℤ)), 1⟩
    let r := ((rollSum pad lag).slice0 s).slice1 s
    let p := (pad.slice0 s).slice1 s
    ⟨r.n, r.m, fun i j => subO (divO (r.get i j) (some 4)) (p.get i j)⟩

/-- tsallis.py:114 lags in pixels, rounded down. -/
noncomputable def tsallisPixLag (lag : ℝ) : ℕ := ⌊lag⌋.toNat

/-- tsallis.py:104-106 default number of bins. -/
noncomputable def tsallisBins (num : Option ℕ) (img : Arr2 (Option ℝ)) : ℕ :=
  match num with
  | some k => k
  | none => ⌈Real.sqrt (img.nFinite : ℝ)⌉₊

/-- One lag's distribution: bin centres and probabilities (the code stores their log10). -/
structure TsallisDist where
  centres : Arr1 ℝ
  prob : Arr1 (Option ℝ)

/-- tsallis.py:136-139 histogram of the standardised increments. -/
noncomputable def tsallisDist (nb : ℕ) (data : List (Option ℝ)) : Py TsallisDist := do
  let v := validVals data
  let e ← histEdges nb v
  let h := histCounts e v
  return ⟨⟨e.n - 1, fun k => (e.get k + e.get (k + 1)) / 2⟩,
    ⟨h.n, fun k => divO (some (h.get k)) (some ((∑ i ∈ range h.n, h.get i : ℕ) : ℝ))⟩⟩

/-- tsallis.py:85-144 one lag: the standardised map (flattened) and its distribution. -/
noncomputable def makeTsallisAt (junk : ℕ → ℕ → Option ℝ) (periodic : Bool) (num : Option ℕ) (lag : ℕ)
    (img : Arr2 (Option ℝ)) : Py (List (Option ℝ) × TsallisDist) := do
  let data := standardize (tsallisMap junk periodic lag img).ravel
  let d ← tsallisDist (tsallisBins num img) data
  return (data, d)

/-- tsallis.py:139, 144 the stored log-probability (`none` = -infinity or NaN: log10 of 0 or NaN). -/
noncomputable def logProb (p : Option ℝ) : Option ℝ :=
  match p with
  | some x => if x = 0 then none else some (log10 x)
  | none => none

/-- tsallis.py:445-460 `tsallis_function`, for `q` other than 1, `wsquare` other than 0 and a positive
argument of the logarithm (elsewhere numpy gives NaN or infinity). -/
noncomputable def tsallisFunction (x loga wsquare q : ℝ) : ℝ :=
  (-1 / (q - 1)) * (log10 (1 + (q - 1) * (x ^ 2 / wsquare)) + loga)

/-- tsallis.py:463-481 `clip_to_sigma`. -/
noncomputable def clipToSigma (sigma : ℝ) (xy : List (Option ℝ × Option ℝ)) : List (ℝ × ℝ) :=
  xy.filterMap (fun p => match p with
    | (some x, some y) => if y < sigma ∧ -sigma < y then some (x, y) else none
    | _ => none)

end TS
