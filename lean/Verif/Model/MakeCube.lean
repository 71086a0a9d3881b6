import Verif.Model.Psds
import Mathlib.Analysis.SpecialFunctions.Exp
import Mathlib.Analysis.Real.Pi.Bounds

/-! Model of turbustat/simulator/make_cube.py and turbustat/simulator/spectrum.pyx.

Velocities are in cm/s and lengths in cm; a quantity whose unit matters to the code also carries the size of its
unit in cm/s. -/

namespace TS
open Finset

/-! ### spectrum.pyx -/

/-- spectrum.pyx:50, 57 cells strictly inside channel `i`. -/
noncomputable def contribCells (vel edges : Arr1 ℝ) (i : ℕ) : List ℕ :=
  (List.range vel.n).filter (fun k => decide (edges.get i < vel.get k ∧ vel.get k < edges.get (i + 1)))

/-- spectrum.pyx:55-66 contribution of cell `k` to velocity channel `c` (σ = 0, which needs zero temperature and
no velocity gradient, gives inf or NaN in the code and 0 here). -/
noncomputable def gaussTerm (vel dens cents dvdz : Arr1 ℝ) (vThermSq pix : ℝ) (k c : ℕ) : ℝ :=
  let sigma := Real.sqrt ((dvdz.get k * pix) ^ 2 + vThermSq)
  (dens.get k * pix) / (Real.sqrt (2 * Real.pi) * sigma) * Real.exp (-((cents.get c - vel.get k) ^ 2 / (2 * sigma ^ 2)))

/-- spectrum.pyx:15-68 `generate_spectrum`. -/
noncomputable def generateSpectrum (vel dens edges cents dvdz : Arr1 ℝ) (vThermSq pix : ℝ) : Arr1 ℝ :=
  ⟨edges.n - 1, (List.range (edges.n - 1)).foldl (fun s i =>
    (contribCells vel edges i).foldl (fun s k => fun c => s c + gaussTerm vel dens cents dvdz vThermSq pix k c) s)
    (fun _ => 0)⟩

/-! ### one line of sight -/

/-- `np.gradient` of a 1D array (fewer than two values raise ValueError). -/
noncomputable def npGradient (a : Arr1 ℝ) : Py (Arr1 ℝ) :=
  if a.n < 2 then .error .valueError
  else .ok ⟨a.n, fun i => if i = 0 then a.get 1 - a.get 0
    else if i + 1 = a.n then a.get (a.n - 1) - a.get (a.n - 2)
    else (a.get (i + 1) - a.get (i - 1)) / 2⟩

/-- make_cube.py:171, 221 `0.5 * (vel_edges[1:] + vel_edges[:-1])`. -/
noncomputable def chanCents (edges : Arr1 ℝ) : Arr1 ℝ :=
  ⟨edges.n - 1, fun k => 1 / 2 * (edges.get (k + 1) + edges.get k)⟩

/-- make_cube.py:15 conversion to K. -/
noncomputable def convToK : ℝ := 1.823e13

/-- make_cube.py:209-235 `_spectrum_maker`. -/
noncomputable def spectrumMaker (edges vel dens : Arr1 ℝ) (vThermSq pix : ℝ) : Py (Arr1 ℝ) := do
  let g ← npGradient vel
  return (generateSpectrum vel dens edges (chanCents edges) (g.map (· / pix)) vThermSq pix).map (· / convToK)

/-! ### slicing the fields -/

/-- `list.insert(i, v)` position in a list of length `n`. -/
def insertPos (n : ℕ) (i : ℤ) : ℕ := (max 0 (min (n : ℤ) (if i < 0 then n + i else i))).toNat

/-- make_cube.py:245-257 `f[field_slice(y, x, los_axis)]`: the slice goes where `list.insert` puts it. -/
def fieldLine (f : Arr3 ℝ) (los : ℤ) (y x : ℕ) : Py (Arr1 ℝ) :=
  match insertPos 2 los with
  | 0 => if y < f.m ∧ x < f.p then .ok ⟨f.n, fun k => f.get k y x⟩ else .error .indexError
  | 1 => if y < f.n ∧ x < f.p then .ok ⟨f.m, fun k => f.get y k x⟩ else .error .indexError
  | _ => if y < f.n ∧ x < f.m then .ok ⟨f.p, fun k => f.get y x k⟩ else .error .indexError

/-- `shape[los_axis]` and the shape without that axis (make_cube.py:174-177), and the axis itself. -/
def losShape (f : Arr3 ℝ) (los : ℤ) : Py (ℕ × ℕ × ℕ) :=
  if los = 0 ∨ los = -3 then .ok (f.n, f.m, f.p)
  else if los = 1 ∨ los = -2 then .ok (f.m, f.n, f.p)
  else if los = 2 ∨ los = -1 then .ok (f.p, f.n, f.m)
  else .error .indexError

/-! ### multiprocessing -/

/-- make_cube.py:185 `list(map(f, tasks))`. -/
def serialMap {α β : Type*} (f : α → Py β) (tasks : List α) : Py (List β) := tasks.mapM f

/-- make_cube.py:188-190 `pool.map(f, tasks)`: the tasks are cut into chunks, each finished chunk is stored at its
own place, in any order of completion; the first failure to arrive is raised. -/
def poolMap {α β : Type*} (f : α → Py β) (chunks : List (List α)) (order : List ℕ) : Py (List β) := do
  let slots ← order.foldlM (fun (slots : List (Option (List β))) i => do
    let r ← (chunks.getD i []).mapM f
    return slots.set i (some r)) (List.replicate chunks.length none)
  return (slots.map (·.getD [])).flatten

/-! ### make_ppv -/

/-- A velocity argument: value in cm/s, size of its unit in cm/s, and whether that unit is a velocity. -/
structure VelArg where
  cgs : ℝ
  unit : ℝ
  isVel : Bool

/-- `.value`. -/
noncomputable def VelArg.value (v : VelArg) : ℝ := v.cgs / v.unit

/-- Options of `make_ppv` that matter to the cube. -/
structure PpvOpts where
  velUnit : ℝ
  los : ℤ
  vThermSq : ℝ
  losLength : ℝ
  velDisp : Option ℝ
  chanWidth : Option VelArg
  vMin : Option VelArg
  vMax : Option VelArg
  maxChan : ℕ
  structIndex : Option ℝ

/-- All the values of a cube. -/
def Arr3.values (a : Arr3 ℝ) : List ℝ :=
  (List.range a.n).flatMap (fun i => (List.range a.m).flatMap (fun j => (List.range a.p).map (fun k => a.get i j k)))

/-- make_cube.py:104-105 mean over the sky of the standard deviation along the line of sight (numpy resolves the
axis, so negative values mean what they say here). -/
noncomputable def defaultDisp (f : Arr3 ℝ) (los : ℤ) : ℝ :=
  let (L, a, b) : ℕ × ℕ × ℕ := if los = 0 ∨ los = -3 then (f.n, f.m, f.p) else if los = 1 ∨ los = -2 then (f.m, f.n, f.p) else (f.p, f.n, f.m)
  let v : ℕ → ℕ → ℕ → ℝ := fun k y x => if los = 0 ∨ los = -3 then f.get k y x else if los = 1 ∨ los = -2 then f.get y k x else f.get y x k
  (∑ y ∈ range a, ∑ x ∈ range b, Real.sqrt ((∑ k ∈ range L, (v k y x - (∑ k ∈ range L, v k y x) / L) ^ 2) / L)) / ((a * b : ℕ) : ℝ)

/-- make_cube.py:112-122 one velocity limit: the default, or the argument if its unit is a velocity. -/
def velLimit (given : Option VelArg) (dflt : ℝ) (velUnit : ℝ) : Py VelArg :=
  match given with
  | none => .ok ⟨dflt, velUnit, true⟩
  | some v => if v.isVel then .ok v else .error .unitsError

/-- make_cube.py:150 `int(np.ceil(del_v / chan_width))`: `np.ceil` acts on the number in the ratio of the two units,
and `int` then converts it to a pure number.  A zero width (an exception in the code) is reported as ValueError. -/
noncomputable def chanCountGiven (delV delUnit : ℝ) (w : VelArg) : Py ℤ :=
  if w.cgs = 0 then .error .valueError
  else
    let scale := delUnit / w.unit
    .ok (pyInt ((⌈delV / w.cgs / scale⌉ : ℝ) * scale))

/-- make_cube.py:134-147 the default: `int(np.ceil(del_v / (v_eff / 2)).value)`, the number in the ratio of units. -/
noncomputable def chanCountDefault (delV delUnit velUnit vEff : ℝ) : Py ℤ :=
  if vEff = 0 then .error .valueError
  else .ok (pyInt (⌈delV / (vEff / 2) / (delUnit / velUnit)⌉ : ℝ))

/-- make_cube.py:100-150 the velocity limits and the number of channels. -/
noncomputable def ppvChannels (vel : Arr3 ℝ) (o : PpvOpts) : Py (VelArg × VelArg × ℤ) := do
  let (L, _, _) ← losShape vel o.los
  let disp := match o.velDisp with
    | some d => d
    | none => defaultDisp vel o.los
  let vLim := Real.sqrt (disp ^ 2 + o.vThermSq)
  let vmin ← velLimit o.vMin ((← npMin vel.values) - 4 * vLim) o.velUnit
  let vmax ← velLimit o.vMax ((← npMax vel.values) + 4 * vLim) o.velUnit
  if vmin.cgs > vmax.cgs then .error .valueError
  else
    let delV := vmax.cgs - vmin.cgs
    let idx := o.structIndex.getD 0.5
    let n ← match o.chanWidth with
      | none => chanCountDefault delV vmax.unit o.velUnit (Real.sqrt (disp ^ 2 * (2 / (L : ℝ)) ^ idx + 2 * o.vThermSq))
      | some w => chanCountGiven delV vmax.unit w
    return (vmin, vmax, n)

/-- make_cube.py:169 `np.linspace(v_min.value, v_max.value, N_chan + 1) * v_min.unit`, in cm/s. -/
noncomputable def velEdges (vmin vmax : VelArg) (n : ℕ) : Arr1 ℝ :=
  (linspace vmin.value vmax.value (n + 1)).map (· * vmin.unit)

/-- make_cube.py:182 `product(range(shape[0]), range(shape[1]))`. -/
def skyTasks (a b : ℕ) : List (ℕ × ℕ) := (List.range a).flatMap (fun y => (List.range b).map (fun x => (y, x)))

/-- make_cube.py:179-181 what is handed to a worker. -/
def taskInput (vel dens : Arr3 ℝ) (los : ℤ) (t : ℕ × ℕ) : Py (Arr1 ℝ × Arr1 ℝ × ℕ × ℕ) := do
  let v ← fieldLine vel los t.1 t.2
  let d ← fieldLine dens los t.1 t.2
  return (v, d, t.1, t.2)

/-- make_cube.py:238-242 `_mapper`. -/
noncomputable def mapper (edges : Arr1 ℝ) (vThermSq pix : ℝ) (i : Arr1 ℝ × Arr1 ℝ × ℕ × ℕ) : Py (Arr1 ℝ × ℕ × ℕ) := do
  let s ← spectrumMaker edges i.1 i.2.1 vThermSq pix
  return (s, i.2.2.1, i.2.2.2)

/-- How the tasks are run: in this process, or by a pool (any chunking of the inputs and any order of completion). -/
inductive Schedule where
  | serial
  | pool (chunking : List (Arr1 ℝ × Arr1 ℝ × ℕ × ℕ) → List (List (Arr1 ℝ × Arr1 ℝ × ℕ × ℕ))) (order : List ℕ)

/-- make_cube.py:184-190 the spectra of all the lines of sight.  Serially, inputs are sliced one by one as they are
needed; the pool slices them all first. -/
noncomputable def runTasks (sch : Schedule) (vel dens : Arr3 ℝ) (los : ℤ) (edges : Arr1 ℝ) (vThermSq pix : ℝ)
    (tasks : List (ℕ × ℕ)) : Py (List (Arr1 ℝ × ℕ × ℕ)) :=
  match sch with
  | .serial => serialMap (fun t => do mapper edges vThermSq pix (← taskInput vel dens los t)) tasks
  | .pool chunking order => do
    let inputs ← serialMap (taskInput vel dens los) tasks
    poolMap (mapper edges vThermSq pix) (chunking inputs) order

/-- make_cube.py:193-197 `cube[:, y, x] = spec` for each spectrum, starting from uninitialised memory. -/
def fillCube (init : ℕ → ℕ → ℕ → ℝ) (spectra : List (Arr1 ℝ × ℕ × ℕ)) : ℕ → ℕ → ℕ → ℝ :=
  spectra.foldl (fun cube s => fun c y x => if y = s.2.1 ∧ x = s.2.2 then s.1.get c else cube c y x) init

/-- make_cube.py:18-206 `make_ppv` with `return_hdu=False`: the cube (in K) and the velocity axis (in cm/s).
A negative channel count (negative width) makes `linspace` raise ValueError.  Both fields are assumed to have the
same shape, as the compiled loop does. -/
noncomputable def makePpv (sch : Schedule) (init : ℕ → ℕ → ℕ → ℝ) (vel dens : Arr3 ℝ) (o : PpvOpts) : Py (Arr3 ℝ × Arr1 ℝ) :=
  if dens.values.any (fun x => decide (x < 0)) then .error .valueError
  else do
    let (vmin, vmax, n) ← ppvChannels vel o
    if n > (o.maxChan : ℤ) then .error .valueError
    else if n + 1 < 0 then .error .valueError
    else
      let edges := velEdges vmin vmax n.toNat
      let (L, a, b) ← losShape vel o.los
      let spectra ← runTasks sch vel dens o.los edges o.vThermSq (o.losLength / L) (skyTasks a b)
      return (⟨(chanCents edges).n, a, b, fillCube init spectra⟩, chanCents edges)

/-- make_cube.py:199-204 with `return_hdu=True`: the cube, and the channel width and first velocity put in the header
(`np.diff(vel_axis)[0]` raises IndexError with fewer than two channels). -/
noncomputable def makePpvHdu (sch : Schedule) (init : ℕ → ℕ → ℕ → ℝ) (vel dens : Arr3 ℝ) (o : PpvOpts) :
    Py (Arr3 ℝ × ℝ × ℝ) := do
  let (cube, axis) ← makePpv sch init vel dens o
  if axis.n < 2 then .error .indexError
  else return (cube, axis.get 1 - axis.get 0, axis.get 0)

end TS
