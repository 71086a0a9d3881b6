import Verif.Np.Nan

/-! Model of the saving and loading of moment maps: `Moments.to_dict`, `get_prop_hdrs`, `to_fits`,
`from_fits` (turbustat/moments/make_moments.py:202-450).  Python strings are lists of characters; the disk is
a partial function from file names to FITS files (the data and header of each HDU).  WCS keywords are not
modelled; FITS data are stored as given. -/

namespace TS

/-- A Python string. -/
abbrev Str := List Char

/-- `str.split(c)`. -/
def pySplit (c : Char) : Str → List Str
  | [] => [[]]
  | x :: t => if x = c then [] :: pySplit c t
    else match pySplit c t with
      | [] => [[x]]
      | h :: r => (x :: h) :: r

/-- `sep.join(l)`. -/
def pyJoin (sep : Str) : List Str → Str
  | [] => []
  | [a] => a
  | a :: b :: t => a ++ sep ++ pyJoin sep (b :: t)

/-- `s[:-k]`. -/
def dropEnd (k : ℕ) (s : Str) : Str := s.take (s.length - k)

/-- `os.path.basename`: what follows the last slash. -/
def baseName (s : Str) : Str := (s.reverse.takeWhile (· ≠ '/')).reverse

/-- `os.path.join(a, b)`. -/
def pathJoin (a b : Str) : Str :=
  if b.head? = some '/' then b
  else if a = [] ∨ a.getLast? = some '/' then a ++ b
  else a ++ ['/'] ++ b

/-- A unit built from the unit of the cube and the unit of its spectral axis: the two powers. -/
abbrev UnitPow := ℕ × ℕ

/-- make_moments.py:294-297 the keywords written by `get_prop_hdrs`. -/
structure MomHdr where
  bunit : UnitPow
  comment : Str
  deriving DecidableEq

/-- An attribute holding a map: not set, `None`, or an array with or without a unit. -/
inductive MapSlot where
  | unset
  | none
  | arr (a : Arr2 (Option ℝ)) (unit : Option UnitPow)

/-- One FITS file: data (possibly none) and header per HDU. -/
abbrev FitsFile := List (Option (Arr2 (Option ℝ)) × MomHdr)

abbrev Disk := Str → Option FitsFile

/-- The attributes of `Moments` used here. -/
structure MomObj where
  saveName : Option Str
  hdrs : Option (List MomHdr × List MomHdr)
  m0 : MapSlot
  m1 : MapSlot
  lw : MapSlot
  e0 : MapSlot
  e1 : MapSlot
  elw : MapSlot

/-- The cube argument: a SpectralCube, or the name of a readable file. -/
inductive CubeArg where
  | object
  | file (name : Str)

/-- make_moments.py:52-75 the constructor: the save name is the file name up to the last dot. -/
def MomObj.new (c : CubeArg) : MomObj :=
  { saveName := match c with
      | .object => Option.none
      | .file name => some (pyJoin ['.'] (pySplit '.' name).dropLast)
    hdrs := Option.none
    m0 := .unset, m1 := .unset, lw := .unset, e0 := .unset, e1 := .unset, elw := .unset }

/-- make_moments.py:270-300 `get_prop_hdrs`: units and comments. -/
def propHdrs : List MomHdr × List MomHdr :=
  let l : List MomHdr := [⟨(1, 0), "Image of the Zeroth Moment".toList⟩, ⟨(0, 1), "Image of the First Moment".toList⟩,
    ⟨(0, 1), "Image of the Second Moment".toList⟩, ⟨(1, 1), "Image of the Integrated Intensity".toList⟩]
  (l, l.map (fun h => ⟨h.bunit, h.comment ++ " Error.".toList⟩))

/-- make_moments.py:331-335, 498-503 the bare array; an attribute that was never set raises AttributeError. -/
def MapSlot.value : MapSlot → Py (Option (Arr2 (Option ℝ)))
  | .unset => .error .attributeError
  | .none => .ok Option.none
  | .arr a _ => .ok (some a)

/-- make_moments.py:324 `labels`. -/
def momLabels : List Str := ["_moment0".toList, "_centroid".toList, "_linewidth".toList]

/-- make_moments.py:340 the name of one file. -/
def momFile (saveName label : Str) : Str := saveName ++ label ++ ".fits".toList

/-- `HDUList.writeto`: an existing file is only replaced with `overwrite=True`. -/
def writeTo (d : Disk) (name : Str) (f : FitsFile) (overwrite : Bool) : Py Disk :=
  if (d name).isSome ∧ overwrite = false then .error .oserror
  else .ok (fun s => if s = name then some f else d s)

/-- make_moments.py:326-341 the loop: files written one after another; what was written before an exception
stays on the disk. -/
def writeAll (overwrite : Bool) : List (Str × FitsFile) → Disk → Disk × Option PyErr
  | [], d => (d, none)
  | (name, f) :: t, d =>
    match writeTo d name f overwrite with
    | .error e => (d, some e)
    | .ok d' => writeAll overwrite t d'

/-- make_moments.py:202-206 `all_moments()`, `all_moment_errs()`. -/
def MomObj.allMaps (o : MomObj) : Py (List (Option (Arr2 (Option ℝ))) × List (Option (Arr2 (Option ℝ)))) := do
  let a ← o.m0.value
  let b ← o.m1.value
  let c ← o.lw.value
  let ea ← o.e0.value
  let eb ← o.e1.value
  let ec ← o.elw.value
  return ([a, b, c], [ea, eb, ec])

/-- make_moments.py:317-322 the save name kept by the object. -/
def MomObj.nameFor (o : MomObj) (arg : Option Str) : Str :=
  match arg with
  | some s => s
  | none => o.saveName.getD "default".toList

/-- make_moments.py:302-341 `to_fits`. -/
def MomObj.toFits (o : MomObj) (arg : Option Str) (overwrite : Bool) (d : Disk) : MomObj × Disk × Option PyErr :=
  let h := o.hdrs.getD propHdrs
  let name := o.nameFor arg
  let o' := { o with hdrs := some h, saveName := some name }
  match o.allMaps with
  | .error e => (o', d, some e)
  | .ok (maps, errs) =>
    let files := (momLabels.zip (maps.zip (errs.zip (h.1.zip h.2)))).map (fun q =>
      (momFile name q.1, [(q.2.1, q.2.2.2.1), (q.2.2.1, q.2.2.2.2)]))
    let r := writeAll overwrite files d
    (o', r.1, r.2)

/-- make_moments.py:406-414 reading one file: a missing file leaves `None`, a file with one HDU raises
IndexError. -/
def readMaps (d : Disk) (name : Str) : Py (MapSlot × MapSlot) :=
  match d name with
  | none => .ok (.none, .none)
  | some f =>
    match f with
    | [] => .error .indexError
    | [_] => .error .indexError
    | p :: q :: _ => .ok (slotOf p.1, slotOf q.1)
where
  /-- The data of an HDU as an attribute. -/
  slotOf : Option (Arr2 (Option ℝ)) → MapSlot
    | none => .none
    | some a => .arr a none

/-- make_moments.py:400-404, 416-421, 433-438 the file name of one map. -/
def mapName (given : Option Str) (path : Str) (root : Option Str) (label : Str) : Py Str :=
  match given with
  | some s => .ok s
  | none =>
    match root with
    | none => .error .typeError
    | some r => .ok (pathJoin path (r ++ label ++ ".fits".toList))

/-- make_moments.py:388-391 the root of the automatic names. -/
def rootName (c : CubeArg) (pref : Option Str) : Option Str :=
  match c with
  | .object => pref
  | .file s => some (baseName (dropEnd 5 s))

/-- make_moments.py:343-450 `from_fits` (a readable cube; the scale is not modelled here). With a mask the
missing method `with_mask` raises AttributeError. -/
def fromFits (d : Disk) (c : CubeArg) (pref path maskName moment0 centroid linewidth : Option Str) : Py MomObj := do
  let p := path.getD []
  let root := rootName c pref
  if maskName.isSome then .error .attributeError
  else
    let n0 ← mapName moment0 p root "_moment0".toList
    let r0 ← readMaps d n0
    let n1 ← mapName centroid p root "_centroid".toList
    let r1 ← readMaps d n1
    let n2 ← mapName linewidth p root "_linewidth".toList
    let r2 ← readMaps d n2
    return { MomObj.new c with m0 := r0.1, e0 := r0.2, m1 := r1.1, e1 := r1.2, lw := r2.1, elw := r2.2 }

/-- make_moments.py:208-268 `to_dict` without the cube: key, array, header. -/
def MomObj.toDict (o : MomObj) : Py (List (Str × Option (Arr2 (Option ℝ)) × MomHdr)) := do
  let a ← o.m0.value
  let ea ← o.e0.value
  let b ← o.m1.value
  let eb ← o.e1.value
  let c ← o.lw.value
  let ec ← o.elw.value
  let h := propHdrs
  return [("moment0".toList, a, h.1.getD 0 ⟨(0, 0), []⟩), ("moment0_error".toList, ea, h.2.getD 0 ⟨(0, 0), []⟩),
    ("centroid".toList, b, h.1.getD 1 ⟨(0, 0), []⟩), ("centroid_error".toList, eb, h.2.getD 1 ⟨(0, 0), []⟩),
    ("linewidth".toList, c, h.1.getD 2 ⟨(0, 0), []⟩), ("linewidth_error".toList, ec, h.2.getD 2 ⟨(0, 0), []⟩)]

end TS
