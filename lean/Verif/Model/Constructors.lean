import Verif.Model.Wcs
import Verif.Model.Dendro
import Verif.Model.SpecWidth

/-!
Constructors: `Dendrogram_Stats.__init__` and `load_dendrogram` (dendrograms/dendro_stats.py), `PCA.__init__` (pca/pca.py),
`StatMoments.__init__` with its radius setter (stat_moments/highstatmoments.py), and the headers and maps of `MVC.__init__`
(mvc/mvc.py).  A constructor that raises gives no object.

Not modelled here: NaNs in the data (`Model/Aliasing.lean`, `Model/Mvc.lean`) and the beam (`Model/BaseStat.lean`).
-/

namespace TS

/-- A new object. -/
def newStat {H B : Type} : StatSt H B := ⟨none, none, none⟩

/-- The array held by an object (`self.data`). -/
def StatSt.arr {H B : Type} (st : StatSt H B) : NArr :=
  match st.data with
  | some (some a) => a
  | _ => ⟨[], fun _ => 0⟩

/-- All values of an array. -/
def NArr.flat (a : NArr) : List (Option ℝ) := (List.range a.shape.prod).map fun k : ℕ => some (a.vals k)

/-! ### Dendrogram_Stats -/

/-- `dendro_params`. -/
structure SavedParams where
  minNpix : Option ℕ
  thr : DendroParams

/-- The argument `min_deltas`. -/
inductive InitDeltas where
  | str (s : String)
  | val (v : DeltaArg)

/-- What a `Dendrogram_Stats` holds. -/
structure DendroObj (H B : Type) where
  st : StatSt H B
  params : SavedParams
  deltas : Option Deltas

/-- dendro_stats.py:61-84 `Dendrogram_Stats.__init__`. -/
noncomputable def dendroStatsInit {H B : Type} (installed : Bool) (d : InputArg NArr H) (header : Option (Obj NArr H))
    (md : InitDeltas) (params : Option SavedParams) (num fresh : ℕ) : Py (DendroObj H B) :=
  if installed = false then .error .importError
  else match inputDataHeader ⟨true, false⟩ (newStat (B := B)) d header false fresh with
    | (_, some e) => .error e
    | (st, none) =>
      let p := params.getD ⟨some 10, ⟨some (1 / 1000), some (1 / 10)⟩⟩
      let r := match md with
        | .str s => if s = "auto" then autosetMinDeltas p.thr st.arr.flat num none else (none, some .valueError)
        | .val v => setMinDeltas p.thr none v
      match r with
      | (_, some e) => .error e
      | (ds, none) => .ok ⟨st, p, ds⟩

/-- What astrodendro reads from a file: the data, a plain array, and the parameters. -/
structure SavedDendro where
  ident : ℕ
  data : NArr
  params : SavedParams

/-- dendro_stats.py:328-345 `load_dendrogram`.  Without astrodendro the name `Dendrogram` does not exist. -/
noncomputable def loadDendrogram {H B : Type} (installed : Bool) (file : SavedDendro) (md : DeltaArg) (fresh : ℕ) :
    Py (DendroObj H B) :=
  if installed = false then .error .nameError
  else dendroStatsInit installed (.obj (.arr file.ident false file.data)) none (.val md) (some file.params) 10 fresh

/-! ### PCA -/

/-- What a `PCA` holds. -/
structure PcaObj (H B : Type) where
  st : StatSt H B
  spectralShape : ℕ
  dist : Option (ℝ × ℝ)

/-- `if distance is not None: self.distance = distance` on a new object. -/
def initDistance : Option DistArg → Py (Option (ℝ × ℝ))
  | none => .ok none
  | some x => match setDistance ⟨none, none⟩ x with
    | (s, none) => .ok s.dist
    | (_, some e) => .error e

/-- pca.py:47-67 `PCA.__init__` (`spec` = the spectral axis of a header).  `raise DeprecationWarning` is `warningRaised`. -/
noncomputable def pcaNew {H B : Type} (spec : H → SpecHeader) (d : InputArg NArr H) (nEigs : Option ℤ) (dist : Option DistArg)
    (fresh : ℕ) : Py (PcaObj H B) :=
  match inputData d false false fresh with
  | .error e => .error e
  | .ok [x, h] => match setBoth ⟨true, false⟩ (newStat (B := B)) x h with
    | (_, some e) => .error e
    | (st, none) => do
      enforceVelocity (match st.header with | some (some hd) => spec hd | _ => none)
      let n ← match st.arr.shape with
        | [] => .error .indexError
        | n :: _ => .ok n
      if nEigs.isSome then .error .warningRaised
      else do
        let s ← initDistance dist
        return ⟨st, n, s⟩
  | .ok _ => .error .valueError

/-! ### StatMoments -/

/-- The argument `radius`. -/
inductive RadiusArg where
  | quantity (q : SQ)
  | other

/-- The argument `nbins`. -/
inductive NbinsArg where
  | none
  | number (v : ℝ)
  | array (l : List ℝ)

/-- highstatmoments.py:72-94 the radius setter: `min` of an empty shape is ValueError. -/
noncomputable def momentsRadius (h : Option Wcs) (dist : Option (ℝ × ℝ)) (shape : List ℕ) : RadiusArg → Py SQ
  | .other => .error .typeError
  | .quantity q => do
    let p ← toPixelW h dist q
    if p < 2 then .error .valueError
    else match shape.min? with
      | none => .error .valueError
      | some side => if (side : ℝ) / 2 < p then .error .valueError else return q

/-- highstatmoments.py:61-66 the number of bins. -/
noncomputable def momentsNbins (size : ℕ) : NbinsArg → Py ℤ
  | .none => .ok (pyInt (Real.sqrt size))
  | .number v => .ok (pyInt v)
  | .array [v] => .ok (pyInt v)
  | .array _ => .error .typeError

/-- What a `StatMoments` holds. -/
structure MomentsObj (B : Type) where
  st : StatSt Wcs B
  weights : Obj NArr Wcs
  dist : Option (ℝ × ℝ)
  radius : SQ
  nbins : ℤ

/-- highstatmoments.py:45-66 `StatMoments.__init__` (`ident` = identity of the array of ones). -/
noncomputable def statMomentsNew {B : Type} (d : InputArg NArr Wcs) (header : Option (Obj NArr Wcs))
    (weights : Option (InputArg NArr Wcs)) (radius : RadiusArg) (nbins : NbinsArg) (dist : Option DistArg) (fresh ident : ℕ) :
    Py (MomentsObj B) :=
  match inputDataHeader ⟨true, false⟩ (newStat (B := B)) d header false fresh with
  | (_, some e) => .error e
  | (st, none) => do
    let w ← match weights with
      | none => .ok (Obj.arr ident false ⟨st.arr.shape, fun _ => 1⟩)
      | some w => match inputData w true false fresh with
        | .ok (x :: _) => .ok x
        | .ok [] => .error .indexError
        | .error e => .error e
    let s ← initDistance dist
    let r ← momentsRadius (match st.header with | some (some hd) => some hd | _ => none) s st.arr.shape radius
    let b ← momentsNbins st.arr.shape.prod nbins
    return ⟨st, w, s, r, b⟩

/-- highstatmoments.py:45 `radius=5 * u.pix`, the default. -/
def defaultRadius : RadiusArg := .quantity ⟨5, .pix⟩

/-! ### MVC -/

/-- What an `MVC` holds, before blank pixels are replaced. -/
structure MvcObj (H B : Type) where
  st : StatSt H B
  centroid : NArr
  moment0 : NArr
  linewidth : NArr

/-- `input_data(x, no_header=True)`. -/
def inputOne {H : Type} (d : InputArg NArr H) (fresh : ℕ) : Py (Obj NArr H) :=
  match inputData d true false fresh with
  | .ok (x :: _) => .ok x
  | .ok [] => .error .indexError
  | .error e => .error e

/-- The array of a map; `.shape` of anything else is AttributeError. -/
def asMap {H : Type} : Obj NArr H → Py NArr
  | .arr _ _ a => .ok a
  | _ => .error .attributeError

/-- mvc.py:52-63 the centroid and the header (TypeErrors of the first attempt are caught). -/
def mvcHeader {H B : Type} (c : InputArg NArr H) (header : Option (Obj NArr H)) (fresh : ℕ) : Py (StatSt H B × Obj NArr H) :=
  match header with
  | some h => match inputOne c fresh with
    | .error e => .error e
    | .ok x => match setHeader ⟨true, false⟩ newStat h with
      | (_, some e) => .error e
      | (st, none) => .ok (st, x)
  | none => match inputData c false false fresh with
    | .ok [x, h] => match setHeader ⟨true, false⟩ newStat h with
      | (st, none) => .ok (st, x)
      | (_, some _) => (inputOne c fresh).map fun x => (newStat, x)
    | .ok _ => .error .valueError
    | .error .typeError => (inputOne c fresh).map fun x => (newStat, x)
    | .error e => .error e

/-- mvc.py:45-79 `MVC.__init__` up to the shape check: only `self.data` is squeezed, the three maps are kept as given. -/
def mvcNew {H B : Type} (c m0 lw : InputArg NArr H) (header : Option (Obj NArr H)) (fresh : ℕ) : Py (MvcObj H B) := do
  let r ← mvcHeader (B := B) c header fresh
  match setData ⟨true, false⟩ r.1 r.2 with
  | (_, some e) => .error e
  | (st, none) => do
    let x ← inputOne m0 fresh
    let y ← inputOne lw fresh
    let a ← asMap r.2
    let b ← asMap x
    let w ← asMap y
    if a.shape ≠ b.shape ∨ a.shape ≠ w.shape then .error .indexError
    else return ⟨st, a, b, w⟩

end TS
