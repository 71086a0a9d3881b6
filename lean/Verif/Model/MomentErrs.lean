import Mathlib.Analysis.SpecialFunctions.Log.Basic
import Verif.Np.Nan

/-!
Model of `turbustat/moments/_moment_errs.py` and of the class `Moments` in `turbustat/moments/make_moments.py`.

A `SpectralCube` is the data it returns (`filled_data`, NaN where excluded), its mask, the size of a pixel along each
axis (`_pix_size_slice`), the offsets of the pixels along axis 0 (`_pix_cen()[0]`) and `spectral_axis[0]`.
Values are numbers in the units of the cube and of its spectral axis.  NaN is `none`; a division by zero also gives
`none` (not finite).  The first and second moments and their errors are modelled along axis 0.
-/

namespace TS

structure SCube where
  data : Arr3 (Option ℝ)
  mask : ℕ → ℕ → ℕ → Bool
  pixSize : ℕ → ℝ
  pixCen : ℕ → ℕ → ℕ → ℝ
  spec0 : ℝ

/-- `scale`: one value, or a SpectralCube of noise values. -/
inductive Noise where
  | const (σ : Option ℝ)
  | cube (s : Arr3 (Option ℝ))

/-- `how`. -/
inductive How where
  | auto | cube | slice | ray | other
  deriving DecidableEq

/-- `np.nan_to_num` of one value. -/
noncomputable def nanToNum (v : Option ℝ) : ℝ := v.getD 0

/-- `np.sum` along a line: NaN as soon as one term is NaN. -/
noncomputable def sumO (l : List (Option ℝ)) : Option ℝ := (l.mapM id).map List.sum

/-- The element `k` of the line through `(y, x)` along an axis. -/
def along {α : Type*} (axis : ℕ) (f : ℕ → ℕ → ℕ → α) (k y x : ℕ) : α :=
  match axis with
  | 0 => f k y x
  | 1 => f y k x
  | _ => f y x k

/-- `cube.shape[axis]`. -/
def Arr3.len {α : Type*} (a : Arr3 α) (axis : ℕ) : ℕ := match axis with | 0 => a.n | 1 => a.m | _ => a.p
/-- `_moment_shp(cube, axis)`. -/
def Arr3.skySize {α : Type*} (a : Arr3 α) (axis : ℕ) : ℕ × ℕ :=
  match axis with | 0 => (a.m, a.p) | 1 => (a.n, a.p) | _ => (a.n, a.m)

/-- The shape test repeated in every function (e.g. _moment_errs.py:228-232). -/
def checkNoise (c : SCube) (s : Noise) : Py Unit :=
  match s with
  | .const _ => .ok ()
  | .cube a => if a.n = c.data.n ∧ a.m = c.data.m ∧ a.p = c.data.p then .ok () else .error .indexError

/-- _moment_errs.py:249-252 (also 311-315, 373-377) the noise of one voxel: NaN noise in a noise cube counts as zero. -/
noncomputable def noisePlane (s : Noise) (axis k y x : ℕ) : Option ℝ :=
  match s with
  | .const σ => σ
  | .cube a => some (nanToNum (along axis a.get k y x))

/-- A boolean times a number. -/
noncomputable def boolMul (b : Bool) (v : Option ℝ) : Option ℝ := mulO (some (if b then 1 else 0)) v

/-- `np.power(v, 2)`. -/
noncomputable def powO (v : Option ℝ) : Option ℝ := v.map (fun t => t ^ 2)

/-- _moment_errs.py:214-259 `_slice0`. -/
noncomputable def slice0 (c : SCube) (axis : ℕ) (s : Noise) : Py (Arr2 (Option ℝ)) := do
  checkNoise c s
  let init : (ℕ → ℕ → Option ℝ) × (ℕ → ℕ → Bool) := (fun _ _ => some 0, fun _ _ => false)
  let r := (List.range (c.data.len axis)).foldl (fun (st : (ℕ → ℕ → Option ℝ) × (ℕ → ℕ → Bool)) i =>
    (fun y x => addO (st.1 y x) (boolMul (along axis c.mask i y x) (powO (noisePlane s axis i y x))),
      fun y x => st.2 y x || along axis c.mask i y x)) init
  let shp := c.data.skySize axis
  return ⟨shp.1, shp.2, fun y x => if r.2 y x then (r.1 y x).map (fun t => Real.sqrt t * c.pixSize axis) else none⟩

/-- _moment_errs.py:388-407 `_cube0`. -/
noncomputable def cube0 (c : SCube) (axis : ℕ) (s : Noise) : Py (Arr2 (Option ℝ)) := do
  checkNoise c s
  let shp := c.data.skySize axis
  return ⟨shp.1, shp.2, fun y x => (sumO ((List.range (c.data.len axis)).map (fun k =>
    boolMul (along axis c.mask k y x) (powO (noisePlane s axis k y x))))).map (fun t => Real.sqrt t * c.pixSize axis)⟩

/-- _moment_errs.py:293-295 `axis_sum`. -/
noncomputable def axisSum (c : SCube) (m0 : Arr2 (Option ℝ)) (y x : ℕ) : Option ℝ :=
  divO (m0.get y x) (some (c.pixSize 0))

/-- _moment_errs.py:262-319 `_slice1` (axis 0). -/
noncomputable def slice1 (c : SCube) (s : Noise) (m0 m1 : Arr2 (Option ℝ)) : Py (Arr2 (Option ℝ)) := do
  checkNoise c s
  let r := (List.range c.data.n).foldl (fun (st : ℕ → ℕ → Option ℝ) i =>
    fun y x => addO (st y x) (powO (mulO
      (subO (divO (some (c.pixCen i y x)) (axisSum c m0 y x)) (divO (m1.get y x) (axisSum c m0 y x)))
      (noisePlane s 0 i y x)))) (fun _ _ => some 0)
  return ⟨c.data.m, c.data.p, fun y x => (r y x).map Real.sqrt⟩

/-- _moment_errs.py:410-449 `_cube1` (axis 0). Here `nan_to_num` is applied to a constant noise value too. -/
noncomputable def cube1 (c : SCube) (s : Noise) (m0 m1 : Arr2 (Option ℝ)) : Py (Arr2 (Option ℝ)) := do
  checkNoise c s
  return ⟨c.data.m, c.data.p, fun y x =>
    if (m0.get y x).isSome || (m1.get y x).isSome then
      (sumO ((List.range c.data.n).map (fun k => powO (mulO
        (subO (divO (some (c.pixCen k y x)) (axisSum c m0 y x)) (divO (m1.get y x) (axisSum c m0 y x)))
        (some (nanToNum (noisePlane s 0 k y x))))))).map Real.sqrt
    else none⟩

/-- _moment_errs.py:371, 365 the bracket of the second moment error. -/
noncomputable def mom2Term (c : SCube) (s : Noise) (m0 m1 m2 : Arr2 (Option ℝ)) (k y x : ℕ) : Option ℝ :=
  powO (mulO (subO (divO (powO (subO (some (c.pixCen k y x)) (m1.get y x))) (axisSum c m0 y x))
    (divO (m2.get y x) (axisSum c m0 y x))) (noisePlane s 0 k y x))

/-- _moment_errs.py:369, 381 intensity times offset from the centroid. -/
noncomputable def mom2Lever (c : SCube) (m1 : Arr2 (Option ℝ)) (k y x : ℕ) : Option ℝ :=
  mulO (some (nanToNum (c.data.get k y x))) (subO (some (c.pixCen k y x)) (m1.get y x))

/-- _moment_errs.py:383 `4 * np.power((moment1_err * term2) / (axis_sum), 2)`. -/
noncomputable def mom2Second (c : SCube) (m0 m1e : Arr2 (Option ℝ)) (t2 : Option ℝ) (y x : ℕ) : Option ℝ :=
  mulO (some 4) (powO (divO (mulO (m1e.get y x) t2) (axisSum c m0 y x)))

/-- _moment_errs.py:322-385 `_slice2` (axis 0). -/
noncomputable def slice2 (c : SCube) (s : Noise) (m0 m1 m2 m1e : Arr2 (Option ℝ)) : Py (Arr2 (Option ℝ)) := do
  checkNoise c s
  let r := (List.range c.data.n).foldl (fun (st : (ℕ → ℕ → Option ℝ) × (ℕ → ℕ → Option ℝ)) i =>
    (fun y x => addO (st.1 y x) (mom2Term c s m0 m1 m2 i y x), fun y x => addO (st.2 y x) (mom2Lever c m1 i y x)))
    (fun _ _ => some 0, fun _ _ => some 0)
  return ⟨c.data.m, c.data.p, fun y x => (addO (r.1 y x) (mom2Second c m0 m1e (r.2 y x) y x)).map Real.sqrt⟩

/-- _moment_errs.py:452-495 `_cube2` (axis 0). -/
noncomputable def cube2 (c : SCube) (s : Noise) (m0 m1 m2 m1e : Arr2 (Option ℝ)) : Py (Arr2 (Option ℝ)) := do
  checkNoise c s
  return ⟨c.data.m, c.data.p, fun y x =>
    if (m0.get y x).isSome || (m1.get y x).isSome || (m2.get y x).isSome then
      (addO (sumO ((List.range c.data.n).map (fun k => mom2Term c s m0 m1 m2 k y x)))
        (mom2Second c m0 m1e (sumO ((List.range c.data.n).map (fun k => mom2Lever c m1 k y x))) y x)).map Real.sqrt
    else none⟩

/-- _moment_errs.py:52-58 `how='auto'`: the choice of `iterator_strategy`, with 'ray' replaced by 'slice'. -/
def pickHow (strategy how : How) : How :=
  match how with
  | .auto => match strategy with | .ray => .slice | h => h
  | h => h

/-- _moment_errs.py:30-80 `moment0_error` (values). -/
noncomputable def moment0Error (strategy how : How) (c : SCube) (s : Noise) (axis : ℕ) : Py (Arr2 (Option ℝ)) :=
  match pickHow strategy how with
  | .cube => cube0 c axis s
  | .slice => slice0 c axis s
  | _ => .error .valueError

/-- _moment_errs.py:121-122, 183-184 the centroid relative to the first channel (on a copy). -/
noncomputable def relCentroid (c : SCube) (m1 : Arr2 (Option ℝ)) : Arr2 (Option ℝ) :=
  m1.map (fun v => subO v (some c.spec0))

/-- _moment_errs.py:83-141 `moment1_error` (values; the moments are given). -/
noncomputable def moment1Error (strategy how : How) (c : SCube) (s : Noise) (m0 m1 : Arr2 (Option ℝ)) : Py (Arr2 (Option ℝ)) :=
  match pickHow strategy how with
  | .cube => cube1 c s m0 (relCentroid c m1)
  | .slice => slice1 c s m0 (relCentroid c m1)
  | _ => .error .valueError

/-- _moment_errs.py:144-211 `moment2_error` (values); without `moment1_err` it is computed cube-wise. -/
noncomputable def moment2Error (strategy how : How) (c : SCube) (s : Noise) (m0 m1 m2 : Arr2 (Option ℝ))
    (m1e : Option (Arr2 (Option ℝ))) : Py (Arr2 (Option ℝ)) := do
  let how := pickHow strategy how
  let rel := relCentroid c m1
  let e ← match m1e with
    | some e => pure e
    | none => cube1 c s m0 rel
  match how with
  | .cube => cube2 c s m0 rel m2 e
  | .slice => slice2 c s m0 rel m2 e
  | _ => .error .valueError

/-- _moment_errs.py:498-516 `linewidth_sigma_err`: here 'auto' is replaced before the call, 'ray' included.  A negative
second moment has a NaN square root. -/
noncomputable def linewidthSigmaErr (strategy how : How) (c : SCube) (s : Noise) (m0 m1 m2 : Arr2 (Option ℝ))
    (m1e : Option (Arr2 (Option ℝ))) : Py (Arr2 (Option ℝ)) := do
  let how := if how = .auto then strategy else how
  let e ← moment2Error strategy how c s m0 m1 m2 m1e
  return ⟨e.n, e.m, fun y x => divO (e.get y x)
    ((m2.get y x).bind (fun v => if v < 0 then none else some (2 * Real.sqrt v)))⟩

/-- _moment_errs.py:519-530 `linewidth_fwhm_err`. -/
noncomputable def linewidthFwhmErr (strategy how : How) (c : SCube) (s : Noise) (m0 m1 m2 : Arr2 (Option ℝ))
    (m1e : Option (Arr2 (Option ℝ))) : Py (Arr2 (Option ℝ)) := do
  let e ← linewidthSigmaErr strategy how c s m0 m1 m2 m1e
  return ⟨e.n, e.m, fun y x => mulO (some (2 * Real.sqrt (2 * Real.log 2))) (e.get y x)⟩

/-! ### the class `Moments` -/

/-- What spectral-cube computes; nothing is assumed about it. -/
structure SpecLib where
  moment0 : How → SCube → Arr2 (Option ℝ)
  moment1 : How → SCube → Arr2 (Option ℝ)
  moment2 : How → SCube → Arr2 (Option ℝ)
  linewidth : How → SCube → Arr2 (Option ℝ)
  strategy : SCube → How

/-- A value offered as `scale`. -/
inductive ScaleArg where
  | none
  | noUnit
  | wrongUnit
  | quantity (v : Option ℝ)

/-- The attributes of a `Moments` object.  `units` is false once the moments were stripped of their units. -/
structure MomentsSt where
  cube : SCube
  how : How
  scale : Option (Option ℝ)
  moments : Option (Arr2 (Option ℝ) × Arr2 (Option ℝ) × Arr2 (Option ℝ))
  units : Bool
  m0e : Option (Arr2 (Option ℝ))
  m1e : Option (Arr2 (Option ℝ))
  lwe : Option (Arr2 (Option ℝ))

/-- make_moments.py:81-100 the `scale` setter. -/
noncomputable def MomentsSt.setScale (st : MomentsSt) (v : ScaleArg) : MomentsSt × Option PyErr :=
  match v with
  | .none => ({ st with scale := Option.none }, Option.none)
  | .noUnit => (st, some .typeError)
  | .wrongUnit => (st, some .unitsError)
  | .quantity q => if (q.map (fun x => decide (x < 0))) = some true then (st, some .valueError)
      else ({ st with scale := some q }, Option.none)

/-- make_moments.py:52-75 the constructor (for a SpectralCube). -/
noncomputable def MomentsSt.new (c : SCube) (v : ScaleArg) (how : How) : Py MomentsSt :=
  if how = .slice ∨ how = .cube ∨ how = .ray then
    match MomentsSt.setScale ⟨c, how, Option.none, Option.none, true, Option.none, Option.none, Option.none⟩ v with
    | (st, Option.none) => .ok st
    | (_, some e) => .error e
  else .error .typeError

/-- make_moments.py:102-117 `apply_mask`: the cube is replaced. -/
def MomentsSt.applyMask (st : MomentsSt) (c : SCube) : MomentsSt × Option PyErr := ({ st with cube := c }, none)

/-- make_moments.py:119-139 `make_moments`; with `units=False` the missing `_moment2` raises AttributeError after the first
two moments have been replaced. -/
def MomentsSt.makeMoments (L : SpecLib) (st : MomentsSt) (units : Bool) : MomentsSt × Option PyErr :=
  let st' := { st with moments := some (L.moment0 st.how st.cube, L.moment1 st.how st.cube, L.linewidth st.how st.cube), units := units }
  if units then (st', none) else (st', some .attributeError)

/-- `np.zeros_like`. -/
def zerosLike (a : Arr2 (Option ℝ)) : Arr2 (Option ℝ) := ⟨a.n, a.m, fun _ _ => some 0⟩

/-- make_moments.py:141-176 `make_moment_errors(scale=arg)`.  Moments without units cannot be combined with the spectral
axis (UnitConversionError). -/
noncomputable def MomentsSt.makeErrors (L : SpecLib) (st : MomentsSt) (arg : Option (Option ℝ)) : MomentsSt × Option PyErr :=
  match st.moments with
  | none => (st, some .valueError)
  | some (m0, m1, lw) =>
    match st.scale, arg with
    | none, none => ({ st with m0e := some (zerosLike m0), m1e := some (zerosLike m1), lwe := some (zerosLike lw) }, none)
    | none, some _ => (st, none)
    | some s, _ =>
      match moment0Error (L.strategy st.cube) st.how st.cube (.const s) 0 with
      | .error e => (st, some e)
      | .ok e0 =>
        let st1 := { st with m0e := some e0 }
        if st.units then
          match moment1Error (L.strategy st.cube) st.how st.cube (.const s) m0 m1 with
          | .error e => (st1, some e)
          | .ok e1 =>
            let st2 := { st1 with m1e := some e1 }
            match linewidthSigmaErr (L.strategy st.cube) st.how st.cube (.const s) m0 m1 (L.moment2 st.how st.cube) (some e1) with
            | .error e => (st2, some e)
            | .ok e2 => ({ st2 with lwe := some e2 }, none)
        else (st1, some .unitConversionError)

/-- make_moments.py:190-192 reading `moment0_err`. -/
def MomentsSt.moment0Err (st : MomentsSt) : Py (Arr2 (Option ℝ)) :=
  match st.m0e with
  | some e => .ok e
  | none => .error .attributeError

/-- One step of a user of the object. -/
inductive MomOp where
  | setScale (v : ScaleArg)
  | applyMask (c : SCube)
  | makeMoments (units : Bool)
  | makeErrors (arg : Option (Option ℝ))

noncomputable def MomentsSt.step (L : SpecLib) (st : MomentsSt) : MomOp → MomentsSt × Option PyErr
  | .setScale v => st.setScale v
  | .applyMask c => st.applyMask c
  | .makeMoments u => st.makeMoments L u
  | .makeErrors a => st.makeErrors L a

/-- A history; exceptions are caught by the user and the object kept. -/
noncomputable def MomentsSt.run (L : SpecLib) (st : MomentsSt) (ops : List MomOp) : MomentsSt :=
  ops.foldl (fun st o => (st.step L o).1) st

end TS
