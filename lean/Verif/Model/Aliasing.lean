import Verif.Np.Core
import Verif.Np.Nan

/-!
Which objects the constructors and `run` methods write to.  Arrays and keyword dictionaries live at addresses; a caller holds
addresses below `next`, everything allocated by the library is at `next` or above.
-/

namespace TS

/-- Arrays in memory (flattened; `none` = NaN). -/
structure AHeap where
  get : ℕ → Arr1 (Option ℝ)
  next : ℕ

/-- `a.copy()`. -/
def AHeap.copy (h : AHeap) (r : ℕ) : AHeap × ℕ := (⟨Function.update h.get h.next (h.get r), h.next + 1⟩, h.next)

/-- Allocation of a new array. -/
def AHeap.alloc (h : AHeap) (a : Arr1 (Option ℝ)) : AHeap × ℕ := (⟨Function.update h.get h.next a, h.next + 1⟩, h.next)

/-- `a[mask] = v`. -/
def AHeap.assign (h : AHeap) (r : ℕ) (mask : ℕ → Bool) (v : ℝ) : AHeap :=
  { h with get := Function.update h.get r ⟨(h.get r).n, fun k => if mask k then some v else (h.get r).get k⟩ }

/-- `np.isnan(a)`. -/
def AHeap.isnan (h : AHeap) (r : ℕ) : ℕ → Bool := fun k => ((h.get r).get k).isNone

/-- `np.isnan(a).any()`. -/
def AHeap.anyNan (h : AHeap) (r : ℕ) : Bool := (List.range (h.get r).n).any (h.isnan r)

/-- `isnan = np.isnan(self.data); if isnan.any(): self.data = self.data.copy(); self.data[isnan] = 0.`: wavelet_transform.py:59-62,
bispec.py:59-62, vca.py:62-65, vcs.py:40-44, and pspec.py:46-48.  `self.data` is the caller's memory (`input_data` without a copy,
`squeeze()` is a view). -/
def cleanInit (h : AHeap) (data : ℕ) : AHeap × ℕ :=
  if h.anyNan data then
    let c := h.copy data
    (c.1.assign c.2 (h.isnan data) 0, c.2)
  else (h, data)

/-- The product of two arrays in new memory. -/
noncomputable def AHeap.mulNew (h : AHeap) (a b : ℕ) : AHeap × ℕ :=
  h.alloc ⟨(h.get a).n, fun k => mulO ((h.get a).get k) ((h.get b).get k)⟩

/-- pspec.py:38-60 `PowerSpectrum.__init__`: data, then weights, then the weighted data. -/
noncomputable def pspecInitHeap (h : AHeap) (data : ℕ) (weights : Option ℕ) : AHeap × ℕ × ℕ :=
  let d := cleanInit h data
  match weights with
  | none =>
    let w := d.1.alloc ⟨(d.1.get d.2).n, fun _ => some 1⟩
    let o := w.1.mulNew d.2 w.2
    (o.1, d.2, o.2)
  | some w =>
    let isnan := d.1.isnan d.2
    let h1 := d.1.assign w (d.1.isnan w) 0
    let h2 := h1.assign w isnan 0
    let h3 := h2.assign d.2 isnan 0
    let o := h3.mulNew d.2 w
    (o.1, d.2, o.2)

/-- mvc.py:81-94 `MVC.__init__`: only pixels missing from all three maps, and only in copies. -/
def mvcClean (h : AHeap) (c m l : ℕ) : AHeap × ℕ × ℕ × ℕ :=
  let isnan : ℕ → Bool := fun k => h.isnan c k && h.isnan m k && h.isnan l k
  if (List.range (h.get c).n).any isnan then
    let c' := h.copy c
    let h1 := c'.1.assign c'.2 isnan 0
    let m' := h1.copy m
    let h2 := m'.1.assign m'.2 isnan 0
    let l' := h2.copy l
    (l'.1.assign l'.2 isnan 0, c'.2, m'.2, l'.2)
  else (h, c, m, l)

/-- width_estimate.py:354-355 the walk-down method's `y /= y.max()` on a row of the caller's transposed array (a view). -/
noncomputable def walkDownScale (h : AHeap) (y : ℕ) (top : ℝ) : AHeap :=
  { h with get := Function.update h.get y ⟨(h.get y).n, fun k => divO ((h.get y).get k) (some top)⟩ }

/-! ### Keyword dictionaries -/

/-- A value in a dictionary: a plain value (its identity) or another dictionary. -/
inductive DVal where
  | val (v : ℕ)
  | none
  | dict (addr : ℕ)
  deriving DecidableEq

/-- Dictionaries in memory. -/
structure DHeap where
  get : ℕ → String → Option DVal
  next : ℕ

/-- `d.pop(k, None)`. -/
def DHeap.pop (h : DHeap) (d : ℕ) (k : String) : DHeap :=
  { h with get := Function.update h.get d (Function.update (h.get d) k Option.none) }

/-- `copy(d)`: shallow. -/
def DHeap.copy (h : DHeap) (d : ℕ) : DHeap × ℕ := (⟨Function.update h.get h.next (h.get d), h.next + 1⟩, h.next)

/-- `if d.get(k) is not None: d.pop(k)`. -/
def DHeap.popGiven (h : DHeap) (d : ℕ) (k : String) : DHeap :=
  match h.get d k with
  | Option.none => h
  | some .none => h
  | some _ => h.pop d k

/-- pspec.py:179-185, vca.py:185-191: the start of `PowerSpectrum.run` and `VCA.run`. -/
def runKwargs (h : DHeap) (pyfftwKw fitKw : ℕ) : DHeap := (h.popGiven pyfftwKw "threads").popGiven fitKw "fit_unbinned"

/-- vcs.py:373-375, mvc.py:275-277: the start of `VCS.run` and `MVC.run`. -/
def runKwargsVcs (h : DHeap) (pyfftwKw : ℕ) : DHeap := h.popGiven pyfftwKw "threads"

/-- pspec.py:282-290 and 311-318: the keyword handling of `PSpec_Distance` for one dataset. -/
def pspecDistKwargs (h : DHeap) (kw : ℕ) : DHeap × ℕ :=
  let c := h.copy kw
  let h1 := ((c.1.pop c.2 "low_cut").pop c.2 "high_cut").pop c.2 "fit_2D"
  match h1.get c.2 "fit_kwargs" with
  | some (.dict f) => (h1.pop f "brk", c.2)
  | _ => (h1, c.2)

/-- dendro_stats.py:548-589: the keyword handling of `Dendrogram_Distance`. -/
def dendroDistKwargs (h : DHeap) (kw : ℕ) : DHeap := (h.pop kw "make_hists").pop kw "verbose"

end TS
