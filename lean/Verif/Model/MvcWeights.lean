import Verif.Model.Mvc

/-! Model of the part of turbustat/statistics/mvc/mvc.py `MVC_Distance.__init__` that turns a dictionary of
moment maps into the maps of an `MVC`. -/

namespace TS

/-- A dictionary of maps and headers, as `Moments.to_dict` (make_moments.py:208-268) makes it. -/
abbrev MapDict (H : Type) := String → Option (Arr2 (Option ℝ) × H)

/-- `d[key]`: a missing key raises `KeyError`. -/
def MapDict.item {H : Type} (d : MapDict H) (key : String) : Py (Arr2 (Option ℝ) × H) :=
  match d key with
  | some x => .ok x
  | none => .error .keyError

/-- mvc.py:355-356 `x * error ** -2.` for one pixel.  An error of zero gives `inf` or `nan` in numpy; here the
pixel is missing, which has the same effect on a Fourier transform (every frequency is NaN), not on the mean
of the line widths. -/
noncomputable def weighPixel (x e : Option ℝ) : Option ℝ := mulO x (divO (some 1) (sqO e))

/-- mvc.py:355-360 `data[name][0] * data[name + "_error"][0] ** -2.`.  Simplification: the two arrays must
have the same shape (numpy would also broadcast an error array with axes of length one). -/
noncomputable def weighMap (x e : Arr2 (Option ℝ)) : Py (Arr2 (Option ℝ)) :=
  if x.n = e.n ∧ x.m = e.m then .ok ⟨x.n, x.m, fun i j => weighPixel (x.get i j) (e.get i j)⟩
  else .error .valueError

/-- One property of the dictionary, weighted or not: mvc.py:355-356 and 362. -/
noncomputable def mapOf {H : Type} (weight : Bool) (d : MapDict H) (key errKey : String) :
    Py (Arr2 (Option ℝ)) := do
  let x ← d.item key
  if weight then
    let e ← d.item errKey
    weighMap x.1 e.1
  else return x.1

/-- mvc.py:354-364 (data1), 371-381 (data2), and the constructions 394-395 and 411-412: the maps of one
dataset and the header they are given. -/
noncomputable def mvcDataset {H : Type} (weight : Bool) (d : MapDict H) : Py (MvcState × H) := do
  let c ← mapOf weight d "centroid" "centroid_error"
  let m0 ← mapOf weight d "moment0" "moment0_error"
  let lw ← mapOf weight d "linewidth" "linewidth_error"
  let h ← d.item "centroid"
  let s ← mvcMaps c m0 lw
  return (s, h.2)

/-- mvc.py:345-425: both datasets, each with its own errors. -/
noncomputable def mvcDatasets {H : Type} (weight : Bool) (d1 d2 : MapDict H) :
    Py ((MvcState × H) × (MvcState × H)) := do
  let a ← mvcDataset weight d1
  let b ← mvcDataset weight d2
  return (a, b)

end TS
