import Verif.Model.MomentsIo

/-! Model of saving and loading a statistic: `BaseStatisticMixIn.save_results`, `load_results`
(turbustat/statistics/base_statistic.py:128-178) and `MVC.save_results` (turbustat/statistics/mvc/mvc.py:200-226).

Objects are lists of named attributes.  Arrays live at addresses, so that two attributes, or an attribute and the caller, can
share one array.  A file holds what `pickle` wrote: the attributes and the arrays they refer to. -/

namespace TS

/-- The value of an attribute: `None`, a number, a string, or the address of an array. -/
inductive AttrVal where
  | none
  | num (x : ℝ)
  | str (s : Str)
  | arr (a : ℕ)

/-- The same value with every array address moved by `d`. -/
def AttrVal.shift (d : ℕ) : AttrVal → AttrVal
  | .arr a => .arr (d + a)
  | v => v

/-- The `__dict__` of an object. -/
abbrev Attrs := List (Str × AttrVal)

/-- `getattr`. -/
def getAttr : Attrs → Str → Option AttrVal
  | [], _ => none
  | (k, v) :: t, name => if k = name then some v else getAttr t name

/-- `setattr`. -/
def setAttr (name : Str) (v : AttrVal) : Attrs → Attrs
  | [] => [(name, v)]
  | (k, u) :: t => if k = name then (k, v) :: t else (k, u) :: setAttr name v t

/-- A file: opened for writing but not completely written, or a complete pickle (attributes, arrays at addresses below `n`). -/
inductive PklFile where
  | torn
  | full (attrs : Attrs) (arrs : ℕ → Arr1 (Option ℝ)) (n : ℕ)

/-- Memory and disk.  Arrays below `nextArr` and objects below `nextObj` exist. -/
structure World where
  arrs : ℕ → Arr1 (Option ℝ)
  nextArr : ℕ
  objs : ℕ → Attrs
  nextObj : ℕ
  disk : Str → Option PklFile

/-- New copies of the arrays `f 0 … f (n-1)` at `nextArr … nextArr+n-1`. -/
def World.allocArrs (w : World) (f : ℕ → Arr1 (Option ℝ)) (n : ℕ) : World :=
  { w with
    arrs := fun k => if w.nextArr ≤ k ∧ k < w.nextArr + n then f (k - w.nextArr) else w.arrs k
    nextArr := w.nextArr + n }

/-- A new object with the given attributes. -/
def World.allocObj (w : World) (at' : Attrs) : World :=
  { w with objs := Function.update w.objs w.nextObj at', nextObj := w.nextObj + 1 }

/-- `copy.deepcopy(self)`, base_statistic.py:144: a new object whose arrays are new; arrays shared by two attributes stay shared
(simplified: arrays the object does not refer to are copied too, at addresses nobody holds). -/
def World.deepcopy (w : World) (o : ℕ) : World × ℕ :=
  ((w.allocArrs w.arrs w.nextArr).allocObj ((w.objs o).map fun p => (p.1, p.2.shift w.nextArr)), w.nextObj)

/-- `obj.name = v`. -/
def World.setattr (w : World) (o : ℕ) (name : Str) (v : AttrVal) : World :=
  { w with objs := Function.update w.objs o (setAttr name v (w.objs o)) }

/-- ".pkl" -/
def pklSuffix : Str := ['.', 'p', 'k', 'l']

/-- base_statistic.py:141-142, mvc.py:213-214 the name of the file. -/
def pklPath (output_name : Str) : Str :=
  if pklSuffix.isSuffixOf output_name then output_name else output_name ++ pklSuffix

/-- What happens while the file is written: it cannot be opened, the writing stops half-way (an attribute that cannot be pickled, a
full disk, a killed process), or it completes. -/
inductive WriteEvent where
  | openFails
  | interrupted
  | completes

/-- The attributes set to `None` when the data are not kept: base_statistic.py:147-148. -/
def baseDropped : List Str := ["_data".toList]

/-- mvc.py:219-222. -/
def mvcDropped : List Str := ["_centroid".toList, "_moment0".toList, "_linewidth".toList]

/-- base_statistic.py:146-148, mvc.py:218-222 on the copy `c`. -/
def dropData (dropped : List Str) (keep : Bool) (w : World) (c : ℕ) : World :=
  if keep then w else dropped.foldl (fun w name => w.setattr c name .none) w

/-- base_statistic.py:150-151 `with open(output_name, 'wb') as output: pickle.dump(...)`.  `open` empties the file. -/
def writePickle (w : World) (c : ℕ) (path : Str) : WriteEvent → World × Py Unit
  | .openFails => (w, .error .oserror)
  | .interrupted => ({ w with disk := Function.update w.disk path (some .torn) }, .error .runtimeError)
  | .completes =>
    ({ w with disk := Function.update w.disk path (some (.full (w.objs c) w.arrs w.nextArr)) }, .ok ())

/-- base_statistic.py:128-151 (`dropped = baseDropped`) and mvc.py:200-226 (`dropped = mvcDropped`). -/
def saveResults (dropped : List Str) (w : World) (o : ℕ) (output_name : Str) (keep : Bool) (ev : WriteEvent) : World × Py Unit :=
  let c := w.deepcopy o
  writePickle (dropData dropped keep c.1 c.2) c.2 (pklPath output_name) ev

/-- base_statistic.py:153-178: the name is used as it is; a missing file and an incomplete pickle raise. -/
def loadResults (w : World) (pickle_file : Str) : World × Py ℕ :=
  match w.disk pickle_file with
  | none => (w, .error .oserror)
  | some .torn => (w, .error .runtimeError)
  | some (.full at' f n) =>
    ((w.allocArrs f n).allocObj (at'.map fun p => (p.1, p.2.shift w.nextArr)), .ok w.nextObj)

/-- Things done between a save and a load.  References to arrays or objects that do not exist are ignored. -/
inductive SaveOp where
  | setattr (o : ℕ) (name : Str) (v : AttrVal)
  | write (a : ℕ) (k : ℕ) (x : Option ℝ)
  | newArr (a : Arr1 (Option ℝ))
  | newObj
  | save (dropped : List Str) (o : ℕ) (output_name : Str) (keep : Bool) (ev : WriteEvent)
  | load (pickle_file : Str)

/-- An attribute value that refers only to existing arrays. -/
def AttrVal.Below (n : ℕ) : AttrVal → Prop
  | .arr a => a < n
  | _ => True

instance (n : ℕ) (v : AttrVal) : Decidable (v.Below n) := by
  cases v <;> unfold AttrVal.Below <;> infer_instance

/-- One step. -/
def saveStep (w : World) : SaveOp → World
  | .setattr o name v => if o < w.nextObj ∧ v.Below w.nextArr then w.setattr o name v else w
  | .write a k x =>
    if a < w.nextArr then
      { w with arrs := Function.update w.arrs a ⟨(w.arrs a).n, Function.update (w.arrs a).get k x⟩ }
    else w
  | .newArr a => w.allocArrs (fun _ => a) 1
  | .newObj => w.allocObj []
  | .save dropped o name keep ev => if o < w.nextObj then (saveResults dropped w o name keep ev).1 else w
  | .load p => (loadResults w p).1

/-- A history. -/
def saveRun (w : World) (ops : List SaveOp) : World := ops.foldl saveStep w

/-- `np.isnan(centroid) & np.isnan(moment0) & np.isnan(linewidth)` has a true entry (arrays flattened): mvc.py:82-87. -/
def mvcBlankAny (c m l : Arr1 (Option ℝ)) : Bool :=
  (List.range c.n).any fun k => (c.get k).isNone && (m.get k).isNone && (l.get k).isNone

/-- mvc.py:89-95 a copy with zeros at the blank pixels. -/
def mvcZeroed (c m l x : Arr1 (Option ℝ)) : Arr1 (Option ℝ) :=
  ⟨x.n, fun k => if (c.get k).isNone && (m.get k).isNone && (l.get k).isNone then some 0 else x.get k⟩

/-- mvc.py:45-97 `MVC.__init__` as far as the arrays are concerned: `self.data = self.centroid` (mvc.py:65) keeps the array given as
centroid, whatever becomes of `_centroid` later. -/
def mvcInitWorld (w : World) (c m l : ℕ) : World × ℕ :=
  let A := w.arrs c
  let B := w.arrs m
  let C := w.arrs l
  if mvcBlankAny A B C then
    let w' := w.allocArrs (fun k => if k = 0 then mvcZeroed A B C A else if k = 1 then mvcZeroed A B C B else mvcZeroed A B C C) 3
    (w'.allocObj [("_data".toList, .arr c), ("_centroid".toList, .arr w.nextArr), ("_moment0".toList, .arr (w.nextArr + 1)),
      ("_linewidth".toList, .arr (w.nextArr + 2))], w.nextObj)
  else
    (w.allocObj [("_data".toList, .arr c), ("_centroid".toList, .arr c), ("_moment0".toList, .arr m),
      ("_linewidth".toList, .arr l)], w.nextObj)

/-- compare_pdf.py:44-59 `PDF.__init__` without weights or normalisation: `self.img` is the array given, `self.data` the values kept. -/
def pdfInitWorld (w : World) (img : ℕ) (kept : Arr1 (Option ℝ)) : World × ℕ :=
  let w' := w.allocArrs (fun _ => kept) 1
  (w'.allocObj [("img".toList, .arr img), ("_data".toList, .arr w.nextArr)], w.nextObj)

end TS
