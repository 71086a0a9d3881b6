import Verif.Model.Io
import Mathlib.Analysis.SpecialFunctions.Sqrt
import Mathlib.Analysis.SpecialFunctions.Trigonometric.Basic

/-!
Model of `turbustat/statistics/base_statistic.py`: `BaseStatisticMixIn`.

Not modelled: saving and loading pickles (128-178), the WCS library (its pixel scale and unit are parameters).
-/

namespace TS

/-- A numpy array: shape and values in memory order. -/
structure NArr where
  shape : List ℕ
  vals : ℕ → ℝ

/-- `values.squeeze()`: axes of length one are dropped, the values stay. -/
def NArr.squeeze (a : NArr) : NArr := ⟨a.shape.filter (fun n => n != 1), a.vals⟩

/-- base_statistic.py:28-32 the class flags. -/
structure StatFlags where
  needHeader : Bool
  noData : Bool

/-- The attributes `_header`, `_data`, `_beam`: `none` = not set; `some none` = set to None. -/
structure StatSt (H B : Type*) where
  header : Option (Option H)
  data : Option (Option NArr)
  beam : Option B

/-- base_statistic.py:38-48 the `header` setter. -/
def setHeader {H B : Type*} (fl : StatFlags) (st : StatSt H B) (x : Obj NArr H) : StatSt H B × Option PyErr :=
  if fl.needHeader = false then ({ st with header := some none }, none)
  else match x with
    | .hdr _ h => ({ st with header := some (some h) }, none)
    | _ => (st, some .typeError)

/-- base_statistic.py:93-102 the `data` setter. -/
def setData {H B : Type*} (fl : StatFlags) (st : StatSt H B) (x : Obj NArr H) : StatSt H B × Option PyErr :=
  if fl.noData = true then ({ st with data := some none }, none)
  else match x with
    | .arr _ _ a => ({ st with data := some (some a.squeeze) }, none)
    | _ => (st, some .typeError)

/-- Two assignments one after the other; the second is not reached when the first raises. -/
def setBoth {H B : Type*} (fl : StatFlags) (st : StatSt H B) (x h : Obj NArr H) : StatSt H B × Option PyErr :=
  match setData fl st x with
  | (st1, some e) => (st1, some e)
  | (st1, none) => setHeader fl st1 h

/-- base_statistic.py:104-126 `input_data_header`. -/
def inputDataHeader {H B : Type*} (fl : StatFlags) (st : StatSt H B) (d : InputArg NArr H) (header : Option (Obj NArr H))
    (needCopy : Bool) (fresh : ℕ) : StatSt H B × Option PyErr :=
  match header with
  | some h => match inputData d true needCopy fresh with
    | .ok (x :: _) => setBoth fl st x h
    | .ok [] => (st, some .indexError)
    | .error e => (st, some e)
  | none => match d with
    | .obj (.arr _ false _) => (st, some .valueError)
    | _ => match inputData d false needCopy fresh with
      | .ok [x, h] => setBoth fl st x h
      | .ok _ => (st, some .valueError)
      | .error e => (st, some e)

/-- What can be given as `beam`. -/
inductive BeamArg (B : Type*) where
  | none
  | beam (b : B)
  | other

/-- base_statistic.py:50-73 `load_beam` (`hb` = `Beam.from_fits_header`, `none` when the header has no beam).  A header of None
makes radio_beam raise; written as TypeError. -/
def loadBeam {H B : Type*} (hb : H → Option B) (st : StatSt H B) : BeamArg B → StatSt H B × Option PyErr
  | .none => match st.header with
    | none => (st, none)
    | some none => (st, some .typeError)
    | some (some h) => match hb h with
      | some b => ({ st with beam := some b }, none)
      | none => (st, none)
  | .beam b => ({ st with beam := some b }, none)
  | .other => (st, some .typeError)

/-- What a user can do to these attributes. -/
inductive StatOp (H B : Type*) where
  | header (x : Obj NArr H)
  | data (x : Obj NArr H)
  | input (d : InputArg NArr H) (header : Option (Obj NArr H)) (needCopy : Bool) (fresh : ℕ)
  | beam (b : BeamArg B)

/-- One operation. -/
def statStep {H B : Type*} (fl : StatFlags) (hb : H → Option B) (st : StatSt H B) : StatOp H B → StatSt H B
  | .header x => (setHeader fl st x).1
  | .data x => (setData fl st x).1
  | .input d h c f => (inputDataHeader fl st d h c f).1
  | .beam b => (loadBeam hb st b).1

/-! ### Spatial units -/

/-- A unit of one of the kinds the conversions tell apart, with its size in pixels, degrees or parsecs. -/
inductive SUnit where
  | pix
  | angle (deg : ℝ)
  | length (pc : ℝ)
  | other
  deriving Inhabited

/-- A quantity. -/
structure SQ where
  val : ℝ
  unit : SUnit

/-- A statistic's spatial information: `_ang_size` (value and the size in degrees of the unit CUNIT2; absent without a
header) and the distance (value, unit size in pc). -/
structure Spatial where
  ang : Option (ℝ × ℝ)
  dist : Option (ℝ × ℝ)

/-- What can be assigned to `distance`: a quantity (scalar or array) or something else. -/
inductive DistArg where
  | quantity (q : SQ) (scalar : Bool)
  | other

/-- base_statistic.py:208-225 the `distance` setter. -/
def setDistance (s : Spatial) : DistArg → Spatial × Option PyErr
  | .other => (s, some .typeError)
  | .quantity q scalar => match q.unit with
    | .length pc => if scalar then ({ s with dist := some (q.val, pc) }, none) else (s, some .typeError)
    | _ => (s, some .unitConversionError)

/-- base_statistic.py:197-206 the `distance` getter. -/
def getDistance (s : Spatial) : Py (ℝ × ℝ) :=
  match s.ang with
  | none => .error .attributeError
  | some _ => match s.dist with
    | none => .error .attributeError
    | some d => .ok d

/-- base_statistic.py:180-195 the factor of `_angular_equiv`: "x pixels are x times `_ang_size.value` degrees". -/
def angFactor (s : Spatial) : Py ℝ :=
  match s.ang with
  | none => .error .attributeError
  | some (v, _) => .ok v

/-- base_statistic.py:227-243 the factor of `_physical_equiv`, in the unit of the distance, and the size of that unit in pc:
angular size in radians times the distance. -/
noncomputable def physFactor (s : Spatial) : Py (ℝ × ℝ) :=
  match s.dist with
  | none => .error .attributeError
  | some (d, pc) => match s.ang with
    | none => .error .attributeError
    | some (v, deg) => .ok (v * deg * (Real.pi / 180) * d, pc)

/-- base_statistic.py:245-263 `_to_pixel` (a quantity; anything else is TypeError). -/
noncomputable def toPixel (s : Spatial) (q : SQ) : Py ℝ :=
  match q.unit with
  | .pix => .ok q.val
  | .angle deg => do
    let f ← angFactor s
    return q.val * deg / f
  | .length pc => do
    let f ← physFactor s
    return q.val * pc / f.2 / f.1
  | .other => .error .unitConversionError

/-- base_statistic.py:278-306 `_spatial_unit_conversion` with `_to_angular` and `_to_physical`: a number of pixels to a
unit. -/
noncomputable def fromPixel (s : Spatial) (p : ℝ) (unit : SUnit) : Py SQ :=
  match unit with
  | .pix => .ok ⟨p, .pix⟩
  | .angle deg => do
    let f ← angFactor s
    return ⟨p * f / deg, .angle deg⟩
  | .length pc => do
    let f ← physFactor s
    return ⟨p * f.1 * f.2 / pc, .length pc⟩
  | .other => .error .unitConversionError

/-- base_statistic.py:265-270 `_to_pixel_freq`: a frequency of `v` per `unit` (`1 / 0` is infinite in numpy and its inverse
0 again, as with Lean's `1 / 0 = 0`). -/
noncomputable def toPixelFreq (s : Spatial) (v : ℝ) (unit : SUnit) : Py ℝ := do
  let p ← toPixel s ⟨1 / v, unit⟩
  return 1 / p

/-- base_statistic.py:308-316 `_spatial_freq_unit_conversion`: cycles per pixel to cycles per unit. -/
noncomputable def fromPixelFreq (s : Spatial) (f : ℝ) (unit : SUnit) : Py ℝ := do
  let q ← fromPixel s (1 / f) unit
  return 1 / q.val

/-- base_statistic.py:272-276 `_to_pixel_area`: an area of `v` square units (a negative one has no square root: NaN). -/
noncomputable def toPixelArea (s : Spatial) (v : ℝ) (unit : SUnit) : Py (Option ℝ) := do
  let p ← toPixel s ⟨Real.sqrt v, unit⟩
  return if v < 0 then none else some (p ^ 2)

end TS
