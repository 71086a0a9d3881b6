import Verif.Np.Core
import Mathlib.Data.Real.Basic

/-!
Model of `turbustat/io/sim_tools.py` and `turbustat/io/input_base.py`.
-/

namespace TS

/-! ### Mock headers (sim_tools.py) -/

/-- The keywords of a mock header that describe the axes.  Angles in degrees, frequencies in Hz; the spectral entries are
in the unit of the channel width.  Not modelled: the constant strings and BUNIT. -/
structure MockHeader where
  cdelt1 : ℝ
  cdelt2 : ℝ
  crpix1 : ℝ
  crpix2 : ℝ
  crval1 : ℝ
  crval2 : ℝ
  bmaj : ℝ
  bmin : ℝ
  restfrq : ℝ
  /-- CRVAL3, CDELT3, CRPIX3 and whether CTYPE3 is FREQ (otherwise VRAD). -/
  spectral : Option (ℝ × ℝ × ℝ × Bool)

/-- sim_tools.py:89-132 `create_image_header` (`imshape` a tuple: IndexError when an entry is missing). -/
noncomputable def createImageHeader (pixelDeg beamDeg : ℝ) (imshape : List ℕ) (restHz : ℝ) : Py MockHeader :=
  match imshape with
  | a :: b :: _ => .ok ⟨-pixelDeg, pixelDeg, (a : ℝ) / 2, (b : ℝ) / 2, 0, 0, beamDeg, beamDeg, restHz, none⟩
  | _ => .error .indexError

/-- sim_tools.py:27-86 `create_cube_header` (`specScale`, `v0` in the unit of the channel width; `isFreq` = that unit is
equivalent to Hz). -/
noncomputable def createCubeHeader (pixelDeg specScale beamDeg : ℝ) (imshape : List ℕ) (restHz v0 : ℝ) (isFreq : Bool) :
    Py MockHeader :=
  match imshape with
  | _ :: b :: c :: _ => .ok ⟨-pixelDeg, pixelDeg, (b : ℝ) / 2, (c : ℝ) / 2, 0, 0, beamDeg, beamDeg, restHz,
      some (v0, specScale, 1, isFreq)⟩
  | _ => .error .indexError

/-- The positional header arguments of `create_fits_hdu`. -/
inductive HeaderArgs where
  | image (pixelDeg beamDeg : ℝ) (imshape : List ℕ) (restHz : ℝ)
  | cube (pixelDeg specScale beamDeg : ℝ) (imshape : List ℕ) (restHz v0 : ℝ) (isFreq : Bool)

/-- sim_tools.py:12-24 `create_fits_hdu` (the header only; the number of arguments decides which header call can succeed:
five for an image, six or seven for a cube, otherwise TypeError). -/
noncomputable def createFitsHdu (dataShape : List ℕ) (args : HeaderArgs) : Py MockHeader :=
  if dataShape.length = 2 then
    match args with
    | .image p b s r => createImageHeader p b s r
    | .cube .. => .error .typeError
  else if dataShape.length = 3 then
    match args with
    | .cube p sp b s r v f => createCubeHeader p sp b s r v f
    | .image .. => .error .typeError
  else .error .valueError

/-! ### input_data (input_base.py) -/

/-- A Python object: an array (with a flag for astropy quantities), a FITS header, or anything else.  `ident` is its
identity, so that copies can be told from the original. -/
inductive Obj (A H : Type*) where
  | arr (ident : ℕ) (quantity : Bool) (content : A)
  | hdr (ident : ℕ) (content : H)
  | other (ident : ℕ)

/-- What can be handed to `input_data`.  `cube`: SpectralCube (its `filled_data[:]` and header); `lowerDim`: Projection,
Slice, OneDSpectrum; `hdu`: PrimaryHDU or ImageHDU (its `data` may be any object, e.g. None); `seq`: tuple or list; `obj`:
anything else, in particular a bare array. -/
inductive InputArg (A H : Type*) where
  | cube (filled : Obj A H) (header : Obj A H)
  | lowerDim (data : Obj A H) (header : Obj A H)
  | hdu (data : Obj A H) (header : Obj A H)
  | seq (items : List (Obj A H))
  | obj (x : Obj A H)

/-- `x.copy()`: the same content under a new identity. -/
def Obj.copyTo {A H : Type*} (fresh : ℕ) : Obj A H → Obj A H
  | .arr _ q c => .arr fresh q c
  | .hdr _ c => .hdr fresh c
  | .other _ => .other fresh

/-- input_base.py:51-55 `make_copy`. -/
def makeCopy {A H : Type*} (needCopy : Bool) (fresh : ℕ) (x : Obj A H) : Obj A H := if needCopy then x.copyTo fresh else x

/-- input_base.py:57-88 `output_data`, before `no_header` is looked at. -/
def inputList {A H : Type*} (d : InputArg A H) (noHeader needCopy : Bool) (fresh : ℕ) : Py (List (Obj A H)) :=
  match d with
  | .cube f h => .ok [makeCopy needCopy fresh f, h]
  | .lowerDim f h => .ok [makeCopy needCopy fresh f, h]
  | .hdu f h => .ok [makeCopy needCopy fresh f, h]
  | .seq items => if items.length ≠ 2 then .error .typeError else .ok items
  | .obj (.arr i q c) => if noHeader then .ok [makeCopy needCopy fresh (.arr i q c)] else .error .typeError
  | .obj _ => .error .typeError

/-- input_base.py:27-94 `input_data`: one object with `no_header`, otherwise the list of data and header. -/
def inputData {A H : Type*} (d : InputArg A H) (noHeader needCopy : Bool) (fresh : ℕ) : Py (List (Obj A H)) := do
  let out ← inputList d noHeader needCopy fresh
  if noHeader then return out.take 1 else return out

end TS
